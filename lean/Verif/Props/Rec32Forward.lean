import Verif.Props.Rec32

set_option autoImplicit false
set_option linter.unusedSimpArgs false

/-!
# C90: recurrent networks of float32 run on sequences of any length

`Forward` ends on every sequence, no word it produces is infinite or NaN, and the outputs stay within a bound of those of the network of real
numbers that the words stand for.
-/

namespace Verif.Rec32
open Verif.F32 Verif.Asm Verif.Spec Verif.Spec.Kernels Verif.Net32 Verif.Spec.Net32 Verif.Spec.Rec32 Verif.Softmax32

variable {M : Machine} {n m : Nat} {X : ℝ}

/-- What holds after every step holds along the sequence. -/
theorem forward_inv {S E : Type} {next : Option S → List F32.W → S → Prop} {step : List F32.W → E → E} {P : Nat → Option S → E → Prop}
    {I : List F32.W → Prop}
    (hs : ∀ t prev e x, I x → P t prev e → (∃ s, next prev x s) ∧ ∀ s, next prev x s → P (t + 1) (some s) (step x e)) :
    ∀ (xs : List (List F32.W)) (t : Nat) (prev : Option S) (e : E), (∀ x ∈ xs, I x) → P t prev e →
      (∃ out, Forward next prev xs out) ∧ ∀ out, Forward next prev xs out → out.length = xs.length ∧
        ∀ i s, out[i]? = some s → P (t + i + 1) (some s) (after step e (xs.take (i + 1))) := by
  intro xs
  induction xs with
  | nil =>
    intro t prev e _ _
    refine ⟨⟨[], rfl⟩, fun out h => ?_⟩
    have h' : out = [] := h
    subst h'
    exact ⟨rfl, fun i s h => by simp at h⟩
  | cons x xs ih =>
    intro t prev e hI hP
    obtain ⟨⟨s, hn⟩, hall⟩ := hs t prev e x (hI x (by simp)) hP
    have hI' : ∀ x ∈ xs, I x := fun y hy => hI y (by simp [hy])
    constructor
    · obtain ⟨⟨ss, hss⟩, -⟩ := ih (t + 1) (some s) (step x e) hI' (hall s hn)
      exact ⟨s :: ss, s, ss, hn, hss, rfl⟩
    · rintro out ⟨s', ss, hn', hss, rfl⟩
      obtain ⟨-, hh⟩ := ih (t + 1) (some s') (step x e) hI' (hall s' hn')
      obtain ⟨h1, h2⟩ := hh ss hss
      refine ⟨by simp [h1], fun i s hi => ?_⟩
      cases i with
      | zero =>
        obtain rfl : s' = s := by simpa using hi
        simpa [Rec32.after] using hall s' hn'
      | succ i =>
        have := h2 i s (by simpa using hi)
        rw [show t + (i + 1) + 1 = t + 1 + i + 1 by omega]
        simpa [Rec32.after] using this

theorem mul_move {a a' b b' A B u v : ℝ} (ha : |a| ≤ A) (hb : |b'| ≤ B) (h1 : |a - a'| ≤ u) (h2 : |b - b'| ≤ v) :
    |a * b - a' * b'| ≤ A * v + B * u := by
  have e : a * b - a' * b' = a * (b - b') + b' * (a - a') := by ring
  rw [e]
  refine (abs_add_le _ _).trans (add_le_add ?_ ?_)
  · rw [abs_mul]; exact mul_le_mul ha h2 (abs_nonneg _) ((abs_nonneg _).trans ha)
  · rw [abs_mul]; exact mul_le_mul hb h1 (abs_nonneg _) ((abs_nonneg _).trans hb)

theorem norm_nonneg' (n m : Nat) (w : List F32.W) : 0 ≤ Net32.norm n m w := largest_nonneg _ _

theorem tanh_move {g : Gate} {x y y' : Nat → ℝ} {d : ℝ} (hd : 0 ≤ d) (h : ∀ k < n, |y k - y' k| ≤ d) {i : Nat} (hi : i < n) :
    |Real.tanh (pre n m g x y i) - Real.tanh (pre n m g x y' i)| ≤ Net32.norm n n g.wRec * d := by
  have h1 := tanh_lip (pre n m g x y i) (pre n m g x y' i)
  rw [one_mul] at h1
  exact h1.trans (pre_move hd h hi)

theorem sig_move {g : Gate} {x y y' : Nat → ℝ} {d : ℝ} (hd : 0 ≤ d) (h : ∀ k < n, |y k - y' k| ≤ d) {i : Nat} (hi : i < n) :
    |Sigmoid32.sigmoid (pre n m g x y i) - Sigmoid32.sigmoid (pre n m g x y' i)| ≤ Net32.norm n n g.wRec / 4 * d := by
  have h1 := sigmoid_lip (pre n m g x y i) (pre n m g x y' i)
  have h2 := pre_move (m := m) (g := g) (x := x) hd h hi
  linarith

theorem sig_abs (x : ℝ) : |Sigmoid32.sigmoid x| ≤ 1 := abs_unit (sigmoid_unit x).1 (sigmoid_unit x).2

/-! ### Simple recurrent network -/

theorem srnBound_nonneg {g : Gate} (hX : 0 ≤ X) : ∀ t, 0 ≤ srnBound n m g X t
  | 0 => le_rfl
  | t + 1 => add_nonneg (tanhErr_nonneg hX) (mul_nonneg (norm_nonneg' _ _ _) (srnBound_nonneg hX t))

/-- **C90: a simple recurrent network.** It ends on every sequence of inputs up to `X`; the outputs have `n` finite elements from -1 to 1; and the
output after `i + 1` inputs is within `srnBound (i + 1)` of that of real numbers. -/
theorem srn_forward (hM : GoodLib M.lib) {g : Gate} (hg : Fits n m g X) (xs : List (List F32.W)) (hx : ∀ x ∈ xs, Within m x X) :
    (∃ out, Forward (srnNext M n m g) none xs out) ∧ ∀ out, Forward (srnNext M n m g) none xs out → out.length = xs.length ∧
      ∀ i y, out[i]? = some y → Within n y 1 ∧
        ∀ k < n, |vals y k - after (fun x => srn n m g (vals x)) (fun _ => 0) (xs.take (i + 1)) k| ≤ srnBound n m g X (i + 1) := by
  have key := forward_inv (next := srnNext M n m g) (step := fun x => srn n m g (vals x)) (I := fun x => Within m x X)
    (P := fun t prev e => (∀ y, prev = some y → Within n y 1) ∧ ∀ k < n, |pv prev k - e k| ≤ srnBound n m g X t)
    (by
      rintro t prev e x hx ⟨p1, p2⟩
      obtain ⟨h1, h2⟩ := srn_step hM hg hx p1
      refine ⟨h1, fun y hy => ?_⟩
      obtain ⟨w, v⟩ := h2 y hy
      refine ⟨fun y' h => by obtain rfl := Option.some.inj h; exact w, fun k hk => ?_⟩
      have e1 := v k hk
      have e2 := tanh_move (m := m) (g := g) (x := vals x) (srnBound_nonneg hg.x0 t) p2 hk
      exact (abs_sub_le _ _ _).trans (add_le_add e1 e2))
    xs 0 none (fun _ => 0) hx ⟨fun y h => by simp at h, fun k hk => by simp [pv, srnBound]⟩
  refine ⟨key.1, fun out ho => ⟨(key.2 out ho).1, fun i y hy => ?_⟩⟩
  obtain ⟨q1, q2⟩ := (key.2 out ho).2 i y hy
  rw [zero_add] at q2
  exact ⟨q1 y rfl, q2⟩

/-- With recurrent weights that contract, the error does not depend on how long the sequence is. -/
theorem srn_uniform {g : Gate} (hX : 0 ≤ X) (hg : Net32.norm n n g.wRec < 1) (t : Nat) :
    srnBound n m g X t ≤ tanhErr n m g X / (1 - Net32.norm n n g.wRec) := by
  have h0 : 0 < 1 - Net32.norm n n g.wRec := by linarith
  have hE : 0 ≤ tanhErr n m g X := tanhErr_nonneg hX
  induction t with
  | zero => exact div_nonneg hE h0.le
  | succ t ih =>
    have := mul_le_mul_of_nonneg_left ih (norm_nonneg' n n g.wRec)
    rw [srnBound, le_div_iff₀ h0]
    rw [← mul_div_assoc, le_div_iff₀ h0] at this
    nlinarith

/-! ### GRU -/

theorem gruErr_nonneg {g : Gru} (hX : 0 ≤ X) : 0 ≤ gruErr n m g X := by
  unfold gruErr
  have h1 : 0 ≤ tanhErr n m g.cand X := tanhErr_nonneg hX
  have h2 : 0 ≤ sigErr n m g.res X := sigErr_nonneg hX
  have h3 : 0 ≤ sigErr n m g.part X := sigErr_nonneg hX
  have h4 := norm_nonneg' n n g.cand.wRec
  positivity

theorem gruBound_nonneg {g : Gru} (hX : 0 ≤ X) : ∀ t, 0 ≤ gruBound n m g X t
  | 0 => le_rfl
  | t + 1 => by
    have h1 := norm_nonneg' n n g.cand.wRec
    have h2 := norm_nonneg' n n g.res.wRec
    have h3 := norm_nonneg' n n g.part.wRec
    have h4 := gruBound_nonneg (g := g) hX t
    have h5 : 0 ≤ gruErr n m g X := gruErr_nonneg hX
    rw [gruBound]
    positivity

/-- The exact output of a GRU stays from -1 to 1. -/
theorem gru_unit {g : Gru} {x y : Nat → ℝ} {i : Nat} (h : |y i| ≤ 1) : |gru n m g x y i| ≤ 1 := by
  unfold gru
  dsimp only
  obtain ⟨p0, p1⟩ := sigmoid_unit (pre n m g.part x y i)
  have hc := tanh_unit (pre n m g.cand x (fun k => y k * Sigmoid32.sigmoid (pre n m g.res x y k)) i)
  generalize Sigmoid32.sigmoid (pre n m g.part x y i) = p at *
  generalize Real.tanh _ = c at *
  obtain ⟨c0, c1⟩ := abs_le.mp hc
  obtain ⟨y0, y1⟩ := abs_le.mp h
  exact abs_le.mpr ⟨by nlinarith, by nlinarith⟩

theorem gru_move {g : Gru} {x y y' : Nat → ℝ} {d : ℝ} (hd : 0 ≤ d) (h : ∀ k < n, |y k - y' k| ≤ d) (hy : ∀ k < n, |y' k| ≤ 1) {i : Nat}
    (hi : i < n) :
    |gru n m g x y i - gru n m g x y' i| ≤
      (1 + Net32.norm n n g.cand.wRec * (1 + Net32.norm n n g.res.wRec / 4) + Net32.norm n n g.part.wRec / 2) * d := by
  have hΛr := norm_nonneg' n n g.res.wRec
  have hyr : ∀ k < n, |y k * Sigmoid32.sigmoid (pre n m g.res x y k) - y' k * Sigmoid32.sigmoid (pre n m g.res x y' k)| ≤
      d + Net32.norm n n g.res.wRec / 4 * d := by
    intro k hk
    rw [mul_comm (y k), mul_comm (y' k)]
    have := mul_move (sig_abs (pre n m g.res x y k)) (hy k hk) (sig_move (m := m) (g := g.res) (x := x) hd h hk) (h k hk)
    linarith
  have hc := tanh_move (m := m) (g := g.cand) (x := x) (by positivity) hyr hi
  have hp := sig_move (m := m) (g := g.part) (x := x) hd h hi
  have hyi := h i hi
  have hy'i := hy i hi
  unfold gru
  dsimp only
  obtain ⟨p0, p1⟩ := sigmoid_unit (pre n m g.part x y i)
  have hc' := tanh_unit (pre n m g.cand x (fun k => y' k * Sigmoid32.sigmoid (pre n m g.res x y' k)) i)
  generalize Real.tanh (pre n m g.cand x (fun k => y' k * Sigmoid32.sigmoid (pre n m g.res x y' k)) i) = c' at *
  generalize Real.tanh (pre n m g.cand x (fun k => y k * Sigmoid32.sigmoid (pre n m g.res x y k)) i) = c at *
  generalize Sigmoid32.sigmoid (pre n m g.part x y i) = p at *
  generalize Sigmoid32.sigmoid (pre n m g.part x y' i) = p' at *
  have e : p * c + (1 - p) * y i - (p' * c' + (1 - p') * y' i) = p * (c - c') + (1 - p) * (y i - y' i) + (p - p') * (c' - y' i) := by ring
  rw [e]
  have b1 : |p * (c - c')| ≤ Net32.norm n n g.cand.wRec * (d + Net32.norm n n g.res.wRec / 4 * d) :=
    (mul_unit_le (abs_unit p0 p1)).trans hc
  have b2 : |(1 - p) * (y i - y' i)| ≤ d := (mul_unit_le (abs_unit (by linarith) (by linarith))).trans hyi
  have b3 : |(p - p') * (c' - y' i)| ≤ Net32.norm n n g.part.wRec / 4 * d * 2 := by
    rw [abs_mul]
    refine mul_le_mul hp ?_ (abs_nonneg _) ((abs_nonneg _).trans hp)
    obtain ⟨c0, c1⟩ := abs_le.mp hc'
    obtain ⟨y0, y1⟩ := abs_le.mp hy'i
    exact abs_le.mpr ⟨by linarith, by linarith⟩
  have := (abs_add_le (p * (c - c') + (1 - p) * (y i - y' i)) ((p - p') * (c' - y' i))).trans
    (add_le_add ((abs_add_le _ _).trans (add_le_add b1 b2)) b3)
  refine this.trans (le_of_eq ?_)
  ring

/-- **C90: a GRU.** It ends on every sequence of inputs up to `X`; the outputs have `n` finite elements from -1 to 1; and the output after `i + 1`
inputs is within `gruBound (i + 1)` of that of real numbers. -/
theorem gru_forward (hM : GoodLib M.lib) {g : Gru} (h1 : Fits n m g.res X) (h2 : Fits n m g.part X) (h3 : Fits n m g.cand X)
    (xs : List (List F32.W)) (hx : ∀ x ∈ xs, Within m x X) :
    (∃ out, Forward (gruNext M n m g) none xs out) ∧ ∀ out, Forward (gruNext M n m g) none xs out → out.length = xs.length ∧
      ∀ i y, out[i]? = some y → Within n y 1 ∧
        ∀ k < n, |vals y k - after (fun x => gru n m g (vals x)) (fun _ => 0) (xs.take (i + 1)) k| ≤ gruBound n m g X (i + 1) := by
  have key := forward_inv (next := gruNext M n m g) (step := fun x => gru n m g (vals x)) (I := fun x => Within m x X)
    (P := fun t prev e => (∀ y, prev = some y → Within n y 1) ∧ (∀ k < n, |e k| ≤ 1) ∧ ∀ k < n, |pv prev k - e k| ≤ gruBound n m g X t)
    (by
      rintro t prev e x hx ⟨p1, p3, p2⟩
      obtain ⟨g1, g2⟩ := gru_step hM h1 h2 h3 hx p1
      refine ⟨g1, fun y hy => ?_⟩
      obtain ⟨w, v⟩ := g2 y hy
      refine ⟨fun y' h => by obtain rfl := Option.some.inj h; exact w, fun k hk => gru_unit (p3 k hk), fun k hk => ?_⟩
      have e1 := v k hk
      have e2 := gru_move (m := m) (g := g) (x := vals x) (gruBound_nonneg h1.x0 t) p2 p3 hk
      exact (abs_sub_le _ _ _).trans (add_le_add e1 e2))
    xs 0 none (fun _ => 0) hx ⟨fun y h => by simp at h, fun k hk => by simp, fun k hk => by simp [pv, gruBound]⟩
  refine ⟨key.1, fun out ho => ⟨(key.2 out ho).1, fun i y hy => ?_⟩⟩
  obtain ⟨q1, -, q2⟩ := (key.2 out ho).2 i y hy
  rw [zero_add] at q2
  exact ⟨q1 y rfl, q2⟩

/-! ### LSTM -/

theorem cellMove_nonneg {g : Lstm} {t c y : ℝ} (ht : 0 ≤ t) (hc : 0 ≤ c) (hy : 0 ≤ y) : 0 ≤ cellMove n g t c y := by
  unfold cellMove
  have h1 := norm_nonneg' n n g.inp.wRec
  have h2 := norm_nonneg' n n g.cand.wRec
  have h3 := norm_nonneg' n n g.forget.wRec
  positivity

theorem lstmBound_nonneg {g : Lstm} (hX : 0 ≤ X) : ∀ t, 0 ≤ (lstmBound n m g X t).1 ∧ 0 ≤ (lstmBound n m g X t).2
  | 0 => ⟨le_rfl, le_rfl⟩
  | t + 1 => by
    obtain ⟨i1, i2⟩ := lstmBound_nonneg (g := g) hX t
    have ht : (0 : ℝ) ≤ t := Nat.cast_nonneg t
    have h1 := cellMove_nonneg (n := n) (g := g) ht i1 i2
    have a1 : 0 ≤ sigErr n m g.inp X := sigErr_nonneg hX
    have a2 : 0 ≤ sigErr n m g.out X := sigErr_nonneg hX
    have a3 : 0 ≤ sigErr n m g.forget X := sigErr_nonneg hX
    have a4 : 0 ≤ tanhErr n m g.cand X := tanhErr_nonneg hX
    have a5 := norm_nonneg' n n g.out.wRec
    have hC : 0 ≤ cellErr n m g X (t + (lstmBound n m g X t).1 + 1) := by unfold cellErr; positivity
    rw [lstmBound]
    dsimp only
    unfold outErr
    exact ⟨by positivity, by positivity⟩

theorem cell_move {g : Lstm} {x c c' y y' : Nat → ℝ} {t dc d : ℝ} (hd : 0 ≤ d) (hy : ∀ k < n, |y k - y' k| ≤ d)
    (hc : ∀ k < n, |c k - c' k| ≤ dc) (ht : ∀ k < n, |c' k| ≤ t) {i : Nat} (hi : i < n) :
    |lstmCell n m g x c y i - lstmCell n m g x c' y' i| ≤ cellMove n g t dc d := by
  unfold lstmCell cellMove
  have e1 := mul_move (sig_abs (pre n m g.inp x y i)) (tanh_unit (pre n m g.cand x y' i)) (sig_move (m := m) (g := g.inp) (x := x) hd hy hi)
    (tanh_move (m := m) (g := g.cand) (x := x) hd hy hi)
  have e2 := mul_move (sig_abs (pre n m g.forget x y i)) (ht i hi) (sig_move (m := m) (g := g.forget) (x := x) hd hy hi) (hc i hi)
  generalize Sigmoid32.sigmoid (pre n m g.inp x y i) * _ = q1 at *
  generalize Sigmoid32.sigmoid (pre n m g.inp x y' i) * _ = q2 at *
  generalize Sigmoid32.sigmoid (pre n m g.forget x y i) * _ = q3 at *
  generalize Sigmoid32.sigmoid (pre n m g.forget x y' i) * _ = q4 at *
  have e : q1 + q3 - (q2 + q4) = (q1 - q2) + (q3 - q4) := by ring
  rw [e]
  refine ((abs_add_le _ _).trans (add_le_add e1 e2)).trans (le_of_eq ?_)
  ring

/-- The exact cell grows by at most one with every input. -/
theorem cell_grow {g : Lstm} {x c y : Nat → ℝ} {t : ℝ} {i : Nat} (h : |c i| ≤ t) : |lstmCell n m g x c y i| ≤ t + 1 := by
  unfold lstmCell
  have h1 : |Sigmoid32.sigmoid (pre n m g.inp x y i) * Real.tanh (pre n m g.cand x y i)| ≤ 1 := (mul_unit_le (sig_abs _)).trans (tanh_unit _)
  have h2 : |Sigmoid32.sigmoid (pre n m g.forget x y i) * c i| ≤ t := (mul_unit_le (sig_abs _)).trans h
  have := abs_add_le (Sigmoid32.sigmoid (pre n m g.inp x y i) * Real.tanh (pre n m g.cand x y i))
    (Sigmoid32.sigmoid (pre n m g.forget x y i) * c i)
  linarith

/-- **C90: an LSTM.** It ends on every sequence of inputs up to `X`, however long; the cells have `n` finite elements up to `2^25` and the outputs
`n` finite elements from -1 to 1; and after `i + 1` inputs they are within `lstmBound (i + 1)` of those of real numbers. -/
theorem lstm_forward (hM : GoodLib M.lib) {g : Lstm} (h1 : Fits n m g.inp X) (h2 : Fits n m g.out X) (h3 : Fits n m g.forget X)
    (h4 : Fits n m g.cand X) (xs : List (List F32.W)) (hx : ∀ x ∈ xs, Within m x X) :
    (∃ out, Forward (lstmNext M n m g) none xs out) ∧ ∀ out, Forward (lstmNext M n m g) none xs out → out.length = xs.length ∧
      ∀ i s, out[i]? = some s → Within n s.cell (2 ^ 25) ∧ Within n s.y 1 ∧
        ∀ k < n,
          |vals s.cell k - (after (fun x => lstm n m g (vals x)) (fun _ => 0, fun _ => 0) (xs.take (i + 1))).1 k| ≤ (lstmBound n m g X (i + 1)).1 ∧
          |vals s.y k - (after (fun x => lstm n m g (vals x)) (fun _ => 0, fun _ => 0) (xs.take (i + 1))).2 k| ≤ (lstmBound n m g X (i + 1)).2 := by
  have key := forward_inv (next := lstmNext M n m g) (step := fun x => lstm n m g (vals x)) (I := fun x => Within m x X)
    (P := fun t prev e => (∀ s, prev = some s → Within n s.cell (2 ^ 25) ∧ Within n s.y 1) ∧ (∀ k < n, |e.1 k| ≤ t) ∧
      (∀ k < n, |pc prev k - e.1 k| ≤ (lstmBound n m g X t).1) ∧ ∀ k < n, |pv (prev.map Cell.y) k - e.2 k| ≤ (lstmBound n m g X t).2)
    (by
      rintro t prev e x hx ⟨p1, p2, p3, p4⟩
      obtain ⟨b1, b2⟩ := lstmBound_nonneg (n := n) (m := m) (g := g) h1.x0 t
      have ht : (0 : ℝ) ≤ t := Nat.cast_nonneg t
      have hC : 1 ≤ (t : ℝ) + (lstmBound n m g X t).1 + 1 := by linarith
      have hcC : ∀ k < n, |pc prev k| ≤ (t : ℝ) + (lstmBound n m g X t).1 + 1 := by
        intro k hk
        have q := abs_sub_le (pc prev k) (e.1 k) 0
        rw [sub_zero, sub_zero] at q
        linarith [p2 k hk, p3 k hk]
      obtain ⟨g1, g2⟩ := lstm_step hM h1 h2 h3 h4 hx p1 hC hcC
      refine ⟨g1, fun s hs => ?_⟩
      obtain ⟨w, v⟩ := g2 s hs
      have hmove : ∀ k < n, |lstmCell n m g (vals x) (pc prev) (pv (prev.map Cell.y)) k - lstmCell n m g (vals x) e.1 e.2 k| ≤
          cellMove n g t (lstmBound n m g X t).1 (lstmBound n m g X t).2 := fun k hk => cell_move b2 p4 p3 p2 hk
      refine ⟨fun s' h => by obtain rfl := Option.some.inj h; exact w, fun k hk => ?_, fun k hk => ?_, fun k hk => ?_⟩
      · push_cast; exact cell_grow (p2 k hk)
      · exact (abs_sub_le _ _ _).trans (add_le_add (v k hk).1 (hmove k hk))
      · have e1 := (v k hk).2
        have e2 := tanh_lip (lstmCell n m g (vals x) (pc prev) (pv (prev.map Cell.y)) k) (lstmCell n m g (vals x) e.1 e.2 k)
        rw [one_mul] at e2
        have e3 := mul_move (sig_abs (pre n m g.out (vals x) (pv (prev.map Cell.y)) k)) (tanh_unit (lstmCell n m g (vals x) e.1 e.2 k))
          (sig_move (m := m) (g := g.out) (x := vals x) b2 p4 hk) (e2.trans (hmove k hk))
        refine (abs_sub_le _ _ _).trans ((add_le_add e1 e3).trans (le_of_eq ?_))
        rw [lstmBound]
        dsimp only
        ring)
    xs 0 none (fun _ => 0, fun _ => 0) hx
    ⟨fun y h => by simp at h, fun k hk => by simp, fun k hk => by simp [pc, lstmBound], fun k hk => by simp [pv, lstmBound]⟩
  refine ⟨key.1, fun out ho => ⟨(key.2 out ho).1, fun i s hs => ?_⟩⟩
  obtain ⟨q1, -, q2, q3⟩ := (key.2 out ho).2 i s hs
  rw [zero_add] at q2 q3
  exact ⟨(q1 s rfl).1, (q1 s rfl).2, fun k hk => ⟨q2 k hk, q3 k hk⟩⟩

end Verif.Rec32
