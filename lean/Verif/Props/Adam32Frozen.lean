import Verif.Props.Adam32

set_option autoImplicit false
set_option linter.unusedSimpArgs false

/-!
# A single large gradient stops Adam on 32-bit words for ever
-/

namespace Verif.Adam32
open Verif.F32 Verif.Asm Verif.Spec Verif.Spec.Kernels Verif.Net32 Verif.Rec32 Verif.Att32 Verif.Spec.Adam32

theorem inf_facts : isNaN posInf = false ∧ isInf posInf = true ∧ isZero posInf = false ∧ (unpack posInf).1 = false := by decide +kernel

theorem pos_facts {x : F32.W} (h : 0 < val x) : isZero x = false ∧ (unpack x).1 = false := by
  constructor
  · by_contra hc
    have hc : isZero x = true := by simpa using hc
    have h0 : x = 0 ∨ x = 0x80000000 := by simpa [isZero] using hc
    rcases h0 with rfl | rfl
    · rw [val_zero] at h; exact absurd h (lt_irrefl _)
    · rw [val_negZero] at h; exact absurd h (lt_irrefl _)
  · by_contra hc
    have hc : (unpack x).1 = true := by simpa using hc
    have : val x ≤ 0 := by
      unfold val
      rw [hc]
      have : (0 : ℝ) ≤ (unpack x).2.1 * (2 : ℝ) ^ (unpack x).2.2 := by positivity
      simp only [if_true]; linarith
    linarith

theorem inf_mul {x : F32.W} (hf : F32.Finite x) (h : 0 < val x) : mulIeee posInf x = posInf := by
  obtain ⟨a1, a2, a3, a4⟩ := inf_facts
  obtain ⟨b1, b2⟩ := pos_facts h
  unfold mulIeee
  rw [a1, hf.not_nan]
  simp only [Bool.or_self, Bool.false_eq_true, if_false, a2, a3, a4, b1, b2, Bool.true_or, if_true, bne_self_eq_false]

theorem inf_add {y : F32.W} (h1 : isNaN y = false) (h2 : y ≠ negInf) : addIeee posInf y = posInf := by
  obtain ⟨a1, a2, -, -⟩ := inf_facts
  unfold addIeee
  rw [a1, h1]
  simp only [Bool.or_self, Bool.false_eq_true, if_false, a2, if_true]
  by_cases hy : isInf y = true
  · have : y = posInf := by
      have hm : y.toNat % 0x80000000 = 0x7f800000 := by simpa [isInf] using hy
      have hlt := y.isLt
      by_cases hb : y.toNat < 0x80000000
      · apply BitVec.eq_of_toNat_eq
        rw [show posInf.toNat = 0x7f800000 by decide]; omega
      · exfalso; apply h2
        apply BitVec.eq_of_toNat_eq
        rw [show negInf.toNat = 0xff800000 by decide]; omega
    rw [this]; simp
  · simp [hy]

theorem add_inf {y : F32.W} (h1 : isNaN y = false) (h2 : y ≠ negInf) : addIeee y posInf = posInf := by
  rw [show addIeee y posInf = addIeee posInf y from F32.add_comm' y posInf]; exact inf_add h1 h2

theorem finite_not {y : F32.W} (h : F32.Finite y) : isNaN y = false ∧ y ≠ negInf :=
  ⟨h.not_nan, fun hc => not_finite_inf.2 (hc ▸ h)⟩

/-- The product of two finite words of the same sign is a number or `+Inf`, and has no sign. -/
theorem mul_plus {x y : F32.W} (hx : F32.Finite x) (hy : F32.Finite y) (h : (unpack x).1 = (unpack y).1) :
    (F32.Finite (mulIeee x y) ∨ mulIeee x y = posInf) ∧ (unpack (mulIeee x y)).1 = false := by
  have e : mulIeee x y = F32.round false ((unpack x).2.1 * (unpack y).2.1) ((unpack x).2.2 + (unpack y).2.2) := by
    unfold mulIeee
    rw [hx.not_nan, hy.not_nan, hx.not_inf, hy.not_inf]
    simp only [Bool.or_self, Bool.false_eq_true, if_false, h, bne_self_eq_false]
  rw [e]
  generalize (unpack x).2.1 * (unpack y).2.1 = m
  generalize (unpack x).2.2 + (unpack y).2.2 = k
  constructor
  · by_cases hf : F32.Finite (F32.round false m k)
    · exact .inl hf
    · right
      have := round_inf false m k hf
      simpa using this
  · unfold unpack F32.round
    simp only [Bool.false_eq_true, if_false]
    by_cases hm : m = 0
    · simp [hm]
    · rw [if_neg hm]
      simp only [BitVec.toNat_ofNat, decide_eq_false_iff_not]
      rw [Nat.mod_eq_of_lt (by omega)]
      omega

/-- The square of a number above 2⁶⁴ is too large. -/
theorem square_inf {g : F32.W} (hg : F32.Finite g) (h : 2 ^ 64 < |val g|) : mulIeee g g = posInf := by
  rcases (mul_plus hg hg rfl).1 with hf | hf
  · exfalso
    have h1 := mul_near_fin hf
    have h2 : (2 : ℝ) ^ 128 < val g * val g := by
      have : (2 : ℝ) ^ 64 * 2 ^ 64 < |val g| * |val g| := mul_self_lt_mul_self (by positivity) h
      rw [abs_mul_abs_self] at this
      calc (2 : ℝ) ^ 128 = 2 ^ 64 * 2 ^ 64 := by norm_num
        _ < _ := this
    have h3 := (finite_exact hf).2
    have h4 : slack (val g * val g) = val g * val g / 2 ^ 24 := by
      unfold slack
      rw [abs_of_nonneg (mul_self_nonneg _), max_eq_left]
      refine le_trans ?_ h2.le
      exact tiny126.trans (by norm_num)
    rw [h4] at h1
    have h5 := (abs_le.mp h1).1
    have h6 := (abs_le.mp h3).2
    unfold maxFin at h6
    norm_num at h2 h5 h6
    linarith
  · exact hf

/-- What is added to the second moment is a number or `+Inf`. -/
theorem gain_ok {o : Settings} {K : ℝ} (ho : Sane o K) {g : F32.W} (hg : F32.Finite g) :
    F32.Finite (mulIeee (mulIeee g g) o.b2c) ∨ mulIeee (mulIeee g g) o.b2c = posInf := by
  obtain ⟨h1, h2⟩ := mul_plus hg hg rfl
  rcases h1 with h1 | h1
  · exact (mul_plus h1 ho.b2c_fin (h2.trans (pos_facts ho.b2c_pos).2.symm)).1
  · rw [h1, inf_mul ho.b2c_fin ho.b2c_pos]; exact .inr rfl

theorem gain_not {o : Settings} {K : ℝ} (ho : Sane o K) {g : F32.W} (hg : F32.Finite g) :
    isNaN (mulIeee (mulIeee g g) o.b2c) = false ∧ mulIeee (mulIeee g g) o.b2c ≠ negInf := by
  rcases gain_ok ho hg with h | h
  · exact finite_not h
  · rw [h]; decide +kernel

/-- `+Inf` stays. -/
theorem m1_stays {o : Settings} {K : ℝ} (ho : Sane o K) {g : F32.W} (hg : F32.Finite g) : m1 o g posInf = posInf := by
  unfold m1
  rw [inf_mul ho.b2_fin ho.b2_pos]
  exact inf_add (gain_not ho hg).1 (gain_not ho hg).2

theorem m1_jumps {o : Settings} {K : ℝ} (ho : Sane o K) {g m : F32.W} (hg : F32.Finite g) (h : 2 ^ 64 < |val g|)
    (hm : F32.Finite m) (hm0 : 0 ≤ val m) : m1 o g m = posInf := by
  unfold m1
  rw [square_inf hg h, inf_mul ho.b2c_fin ho.b2c_pos]
  have hf : F32.Finite (mulIeee m o.b2) := by
    refine mul_fin hm ho.b2_fin ?_
    have h1 := (finite_exact hm).2
    have h2 := ho.b2_le
    have h3 := ho.b2_pos
    rw [abs_mul, abs_of_pos h3]
    refine le_trans ?_ h1
    calc |val m| * val o.b2 ≤ |val m| * 1 := mul_le_mul_of_nonneg_left (by norm_num at h2; linarith) (abs_nonneg _)
      _ = _ := mul_one _
  exact add_inf (finite_not hf).1 (finite_not hf).2

/-- Nothing is subtracted. -/
theorem w1_stays {o : Settings} {K : ℝ} (ho : Sane o K) (hd : o.decay = none) {alpha w v : F32.W} (fa : F32.Finite alpha)
    (fw : F32.Finite w) (fv : F32.Finite v) : F32.Finite (w1 o alpha w v posInf) ∧ val (w1 o alpha w v posInf) = val w := by
  have h1 : addIeee (sqrtIeee posInf) o.eps = posInf := by
    rw [sqrt_inf]; exact inf_add (finite_not ho.eps_fin).1 (finite_not ho.eps_fin).2
  obtain ⟨a1, a2, -, a4⟩ := inf_facts
  have h2 : F32.Finite (divIeee v posInf) ∧ val (divIeee v posInf) = 0 := by
    have : divIeee v posInf = if (unpack v).1 then 0x80000000 else 0 := by
      unfold divIeee
      rw [fv.not_nan, a1]
      simp only [Bool.or_self, Bool.false_eq_true, if_false, fv.not_inf, a2, if_true, a4]
      cases (unpack v).1 <;> simp
    rw [this]
    exact ⟨by cases (unpack v).1 <;> (unfold F32.Finite; decide), val_signed_zero _⟩
  have h3 : dir1 o w v posInf = divIeee v posInf := by unfold dir1; rw [hd]; simp only; rw [h1]
  have h4 : F32.Finite (mulIeee (divIeee v posInf) alpha) := mul_fin h2.1 fa (by rw [h2.2, zero_mul, abs_zero]; unfold maxFin; norm_num)
  have h5 : val (mulIeee (divIeee v posInf) alpha) = 0 := by
    have := (mul_unit h2.1 fa zero_exact (by rw [h2.2, zero_mul, abs_zero]) (by unfold maxFin; norm_num)).2
    exact abs_nonpos_iff.mp this
  have h6 : val (F32.flip (mulIeee (divIeee v posInf) alpha)) = 0 := by rw [flip_val, h5, neg_zero]
  unfold w1
  rw [h3]
  refine ⟨add_fin fw (flip_finite h4) ?_, ?_⟩
  · rw [h6, add_zero]; exact (finite_exact fw).2
  · rw [add_zero_val fw (flip_finite h4) (.inr h6), h6, add_zero]

theorem run1_stays {o : Settings} {K A : ℝ} (ho : Sane o K) (hd : o.decay = none) :
    ∀ (l : List (F32.W × F32.W)) (c : Cell), (∀ p ∈ l, Feed1 A (2 ^ 120) p) → F32.Finite c.w → F32.Finite c.v →
      |val c.v| ≤ 2 * 2 ^ 120 → c.m = posInf → F32.Finite (run1 o l c).w ∧ val (run1 o l c).w = val c.w
  | [], c, _, hw, _, _, _ => ⟨hw, rfl⟩
  | p :: l, c, hl, hw, hv, hv2, hm => by
    obtain ⟨fa, a0, a1, fg, hg⟩ := hl p List.mem_cons_self
    obtain ⟨fv, v2, -⟩ := v1_ok ho (by norm_num) le_rfl fg hv hg hv2
    have hm' : m1 o p.2 c.m = posInf := by rw [hm]; exact m1_stays ho fg
    obtain ⟨w1, w2⟩ := w1_stays ho hd fa hw fv
    rw [← hm'] at w1 w2
    obtain ⟨r1, r2⟩ := run1_stays ho hd l (step1 o p.1 p.2 c) (fun q hq => hl q (List.mem_cons_of_mem _ hq)) w1 fv v2 hm'
    exact ⟨r1, r2.trans w2⟩

/-- **One large gradient is the end of training**: after gradients up to 2⁶⁰ let one gradient of element `i` be above 2⁶⁴.  Neither this
step nor any later one, whatever their gradients up to 2¹²⁰, changes the element. -/
theorem adam_frozen {cpu : Cpu} {o : Settings} {A K : ℝ} {P : Int} (ho : Sane o K) (hR : Room o A K P) (hd : o.decay = none)
    {n : Nat} {l l' : List (F32.W × List F32.W)} (hl : ∀ p ∈ l, Feeds n A (2 ^ 60) p) {w w₁ w₂ : List F32.W} {s₁ s₂ : State}
    (hn : w.length = n) (hw : ∀ i < n, F32.Finite (w.getD i 0) ∧ |val (w.getD i 0)| ≤ (2 : ℝ) ^ P) (h : Train cpu o l w w₁ s₁)
    {alpha : F32.W} {g : List F32.W} (hp : Feeds n A (2 ^ 120) (alpha, g)) {i : Nat} (hi : i < n) (hbig : 2 ^ 64 < |val (g.getD i 0)|)
    (hl' : ∀ p ∈ l', Feeds n A (2 ^ 120) p) (h' : Steps cpu o ((alpha, g) :: l') w₁ s₁ w₂ s₂) :
    F32.Finite (w₂.getD i 0) ∧ val (w₂.getD i 0) = val (w₁.getD i 0) := by
  obtain ⟨hf, h4⟩ := train_inv ho hR (by norm_num) le_rfl hl hn hw h
  obtain ⟨hinv, -, -⟩ := h4 i hi
  obtain ⟨-, -, h5⟩ := steps_cell _ hf h'
  have h6 : w₂.getD i 0 = (run1 o (col l' i) (step1 o alpha (g.getD i 0) (cell w₁ s₁ i))).w :=
    congrArg Cell.w (h5 i hi)
  have fg := (hp.2.2.2.2 i hi).1
  obtain ⟨fv, v2, -⟩ := v1_ok ho (by norm_num) le_rfl fg hinv.v_fin (hp.2.2.2.2 i hi).2 (hinv.v_le.trans (by norm_num))
  have hm := m1_jumps ho fg hbig hinv.m_fin hinv.m_nonneg
  obtain ⟨w1, w2⟩ := w1_stays ho hd hp.1 hinv.w_fin fv
  rw [← hm] at w1 w2
  obtain ⟨r1, r2⟩ := run1_stays ho hd (col l' i) (step1 o alpha (g.getD i 0) (cell w₁ s₁ i)) (feed_col hl' hi) w1 fv v2 hm
  rw [h6]
  exact ⟨r1, r2.trans w2⟩

end Verif.Adam32
