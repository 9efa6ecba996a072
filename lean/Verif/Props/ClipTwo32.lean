import Verif.Model.ClipTwo32
import Verif.Spec.ClipTwo32
import Verif.Props.Clip32
import Verif.Props.Norm32Overflow

set_option autoImplicit false
set_option linter.unusedSimpArgs false

/-!
# C106: clipping by the Euclidean norm, on float32

Gradients up to 2^50 are scaled as documented, up to rounding.  One finite gradient element above 2^64 has a square that overflows, and
clipping makes every gradient zero.
-/

namespace Verif.ClipTwo32
open Verif.F32 Verif.Asm Verif.Rec32 Verif.Adam32 Verif.Norm32 Verif.Clip32 Verif.Spec.ClipTwo32
open Verif.Spec.Rec32 (vals)

/-! ### The sum of squares -/

theorem sum_list (f : F32.W → ℝ) : ∀ g : List F32.W, ∑ i ∈ Finset.range g.length, f (g.getD i 0) = (g.map f).sum := by
  intro g
  induction g with
  | nil => simp
  | cons a l ih =>
    rw [List.length_cons, Finset.sum_range_succ', List.map_cons, List.sum_cons, ← ih, add_comm]
    rfl

theorem abs_get {g : List F32.W} {i : Nat} (hi : i < g.length) : (g.map absW).getD i 0 = absW (g.getD i 0) := by
  rw [List.getD_eq_getElem _ _ (by simpa using hi), List.getD_eq_getElem _ _ hi, List.getElem_map]

theorem get_mem {g : List F32.W} {i : Nat} (hi : i < g.length) : g.getD i 0 ∈ g := by
  rw [List.getD_eq_getElem _ _ hi]; exact List.getElem_mem hi

theorem sumSq_exists (cpu : Cpu) (g : List F32.W) : ∃ v, SumSq cpu g v := by
  obtain ⟨w, hw⟩ := sum1_exists cpu (List.zipWith mulIeee (g.map absW) (g.map absW))
  exact ⟨w, _, ⟨rfl, rfl⟩, hw⟩

theorem sumSq_close {cpu : Cpu} {g : List F32.W} {v : F32.W} (h : SumSq cpu g v) (hn : g.length ≤ 2 ^ 20)
    (hx : ∀ x ∈ g, F32.Finite x ∧ |val x| ≤ 2 ^ 50) :
    F32.Finite v ∧ 0 ≤ val v ∧ |val v - (g.map fun x => val x ^ 2).sum| ≤ (g.length + 2) / 2 ^ 23 * (g.map fun x => val x ^ 2).sum + 1 / 2 ^ 129 := by
  obtain ⟨sq, h1, h2⟩ := h
  have hl : (g.map absW).length = g.length := by simp
  obtain ⟨f, p, -, e, -⟩ := sumSq_ok h1 h2 (by rw [hl]; exact hn) (fun i hi => by
    rw [hl] at hi
    rw [abs_get hi, absW_val, abs_abs]
    exact ⟨absW_finite (hx _ (get_mem hi)).1, (hx _ (get_mem hi)).2⟩)
  refine ⟨f, p, ?_⟩
  have es : ∑ i ∈ Finset.range (g.map absW).length, vals' (g.map absW) i * vals' (g.map absW) i = (g.map fun x => val x ^ 2).sum := by
    have := sum_list (fun w => val w * val w) (g.map absW)
    rw [this, List.map_map]
    congr 1
    apply List.map_congr_left
    intro x _
    change val (absW x) * val (absW x) = _
    rw [absW_val, abs_mul_abs_self, pow_two]
  rw [es, hl] at e
  have : (g.length : ℝ) / 2 ^ 149 ≤ 1 / 2 ^ 129 := by
    have : (g.length : ℝ) ≤ 2 ^ 20 := by exact_mod_cast hn
    rw [div_le_div_iff₀ (by positivity) (by positivity)]
    nlinarith
  linarith

theorem sums_close {cpu : Cpu} {L : Nat} (hL : L ≤ 2 ^ 20) {gs : List (List F32.W)} {vs : List F32.W} (h : List.Forall₂ (SumSq cpu) gs vs)
    (hn : ∀ g ∈ gs, g.length ≤ L) (hx : ∀ g ∈ gs, ∀ x ∈ g, F32.Finite x ∧ |val x| ≤ 2 ^ 50) :
    (∀ v ∈ vs, F32.Finite v ∧ 0 ≤ val v) ∧ 0 ≤ (gs.map fun g => (g.map fun x => val x ^ 2).sum).sum ∧
    |(vs.map val).sum - (gs.map fun g => (g.map fun x => val x ^ 2).sum).sum| ≤
      ((L : ℝ) + 2) / 2 ^ 23 * (gs.map fun g => (g.map fun x => val x ^ 2).sum).sum + gs.length / 2 ^ 129 := by
  induction h with
  | nil => simp
  | @cons g v gs vs hg _ ih =>
    obtain ⟨i1, i0, i2⟩ := ih (fun g' h => hn g' (by simp [h])) (fun g' h => hx g' (by simp [h]))
    have hgl : g.length ≤ L := hn g (by simp)
    obtain ⟨f, p, e⟩ := sumSq_close hg (hgl.trans hL) (hx g (by simp))
    have s0 : 0 ≤ (g.map fun x => val x ^ 2).sum := by
      apply List.sum_nonneg
      intro a ha
      obtain ⟨x, _, rfl⟩ := List.mem_map.mp ha
      positivity
    refine ⟨?_, ?_, ?_⟩
    · intro w hw
      rcases List.mem_cons.mp hw with rfl | hw
      · exact ⟨f, p⟩
      · exact i1 w hw
    · rw [List.map_cons, List.sum_cons]; linarith
    · simp only [List.map_cons, List.sum_cons, List.length_cons]
      have hg' : ((g.length : ℝ) + 2) / 2 ^ 23 * (g.map fun x => val x ^ 2).sum ≤ ((L : ℝ) + 2) / 2 ^ 23 * (g.map fun x => val x ^ 2).sum := by
        apply mul_le_mul_of_nonneg_right _ s0
        apply div_le_div_of_nonneg_right _ (by positivity)
        have : (g.length : ℝ) ≤ L := by exact_mod_cast hgl
        linarith
      generalize (g.map fun x => val x ^ 2).sum = A at *
      generalize (gs.map fun g => (g.map fun x => val x ^ 2).sum).sum = B at *
      have e1 : ((L : ℝ) + 2) / 2 ^ 23 * (A + B) = ((L : ℝ) + 2) / 2 ^ 23 * A + ((L : ℝ) + 2) / 2 ^ 23 * B := by ring
      have e2 : ((gs.length + 1 : Nat) : ℝ) / 2 ^ 129 = gs.length / 2 ^ 129 + 1 / 2 ^ 129 := by push_cast; ring
      rw [e1, e2]
      have := abs_add_le (val v - A) ((vs.map val).sum - B)
      rw [show val v + (vs.map val).sum - (A + B) = val v - A + ((vs.map val).sum - B) by ring]
      linarith

/-- Square roots of close numbers are close. -/
theorem sqrt_close {a b η t : ℝ} (ha : 0 ≤ a) (hb : 0 ≤ b) (ht : 0 ≤ t) (hη : 0 ≤ η) (h : |a - b| ≤ η * b + t ^ 2) : |√a - √b| ≤ η * √b + t := by
  have sa := Real.sq_sqrt ha
  have sb := Real.sq_sqrt hb
  have pa := Real.sqrt_nonneg a
  have pb := Real.sqrt_nonneg b
  generalize √a = x at *
  generalize √b = y at *
  subst sa sb
  by_contra hc
  have hc := not_le.mp hc
  have e : |x ^ 2 - y ^ 2| = |x - y| * (x + y) := by
    rw [show x ^ 2 - y ^ 2 = (x - y) * (x + y) by ring, abs_mul, abs_of_nonneg (show 0 ≤ x + y by linarith)]
  rw [e] at h
  have d1 : |x - y| ≤ x + y := abs_le.mpr ⟨by linarith, by linarith⟩
  have hyy : 0 ≤ η * y := mul_nonneg hη pb
  have hd : t < |x - y| := by linarith
  have hs : 0 < x + y := by linarith
  have h1 : (η * y + t) * (x + y) < |x - y| * (x + y) := mul_lt_mul_of_pos_right hc hs
  have h2 : t * t ≤ t * (x + y) := mul_le_mul_of_nonneg_left (by linarith) ht
  have h3 : η * y * y ≤ η * y * (x + y) := mul_le_mul_of_nonneg_left (by linarith) hyy
  nlinarith

/-! ### One element -/

theorem cell_two {q δ : ℝ} {x c : F32.W} (hx : F32.Finite x) (hc : F32.Finite c) (h0 : 0 ≤ val c) (h1 : val c ≤ 1) (hq : |val c - q| ≤ δ) :
    F32.Finite (mulIeee x c) ∧ |val (mulIeee x c)| ≤ |val x| ∧
      |val (mulIeee x c) - val x * q| ≤ |val x| * δ + |val x| * (q + δ) / 2 ^ 24 + (2 : ℝ) ^ (-150 : Int) := by
  have hX0 : 0 ≤ |val x| := abs_nonneg _
  have hxc : |val x * val c| = |val x| * val c := by rw [abs_mul, abs_of_nonneg h0]
  have hXc : |val x| * val c ≤ |val x| := by nlinarith
  obtain ⟨f, hs⟩ := mul_unit hx hc (by rw [← absW_val]; exact exact_val _) (by rw [hxc]; exact hXc) (abs_val_le hx)
  refine ⟨f, hs, ?_⟩
  have hn := mul_rel f
  rw [hxc] at hn
  have e1 : |val x * val c - val x * q| ≤ |val x| * δ := by
    rw [← mul_sub, abs_mul]; exact mul_le_mul_of_nonneg_left hq hX0
  have e2 : |val x| * val c / 2 ^ 24 ≤ |val x| * (q + δ) / 2 ^ 24 := by
    apply div_le_div_of_nonneg_right _ (by positivity)
    apply mul_le_mul_of_nonneg_left _ hX0
    have := (abs_le.mp hq).2
    linarith
  have e3 := abs_sub_le (val (mulIeee x c)) (val x * val c) (val x * q)
  linarith

/-- Quotients by close numbers are close. -/
theorem quot_close {K s n η : ℝ} (hK : 0 < K) (hn : 0 < n) (hη : 0 ≤ η) (hη4 : η ≤ 1 / 4) (h : |s - n| ≤ η * n) :
    0 < s ∧ |K / s - K / n| ≤ 2 * η * (K / n) := by
  obtain ⟨h1, h2⟩ := abs_le.mp h
  have hs : 0 < s := by nlinarith
  refine ⟨hs, ?_⟩
  have e : K / s - K / n = K / n * ((n - s) / s) := by field_simp
  rw [e, abs_mul, abs_of_pos (div_pos hK hn), abs_div, abs_of_pos hs, abs_sub_comm, mul_comm]
  apply mul_le_mul_of_nonneg_right _ (div_pos hK hn).le
  rw [div_le_iff₀ hs]
  nlinarith

/-! ### The theorem -/

/-- **C106, gradients up to 2^50.**  Clipping ends, and whatever it gives has the same shape; nothing gets larger, gradients of a small norm
are unchanged, and those of a large norm are scaled by one factor up to rounding. -/
theorem clip_partial (cpu : Cpu) {K : ℝ} (hK : 0 < K) {coef : List F32.W → Option F32.W} (hc : GoodRoot K coef) {L : Nat} (hL : L ≤ 2 ^ 20)
    {gs : List (List F32.W)} (hgs : gs.length ≤ 2 ^ 20) (hn : ∀ g ∈ gs, g.length ≤ L)
    (hx : ∀ g ∈ gs, ∀ x ∈ g, F32.Finite x ∧ |val x| ≤ 2 ^ 50) :
    (∃ gs', ClipTwo cpu coef gs gs') ∧
    ∀ gs', ClipTwo cpu coef gs gs' → List.Forall₂ (List.Forall₂ (Clipped K (norm2 gs) L)) gs gs' := by
  constructor
  · have : ∃ vs, List.Forall₂ (SumSq cpu) gs vs := by
      clear hgs hn hx
      induction gs with
      | nil => exact ⟨[], .nil⟩
      | cons g gs ih =>
        obtain ⟨vs, h⟩ := ih
        obtain ⟨v, hv⟩ := sumSq_exists cpu g
        exact ⟨v :: vs, .cons hv h⟩
    obtain ⟨vs, hvs⟩ := this
    cases e : coef vs with
    | none => exact ⟨gs, vs, hvs, by rw [e]⟩
    | some c => exact ⟨_, vs, hvs, by rw [e]; exact (forall₂_scale _ _ _ _).mpr rfl⟩
  · rintro gs' ⟨vs, hvs, hm⟩
    obtain ⟨v1, v0, v2⟩ := sums_close hL hvs hn hx
    have hvl : vs.length ≤ 2 ^ 20 := by rw [← hvs.length_eq]; exact hgs
    have hv0 : 0 ≤ (vs.map val).sum := by
      apply List.sum_nonneg
      intro a ha
      obtain ⟨x, hx, rfl⟩ := List.mem_map.mp ha
      exact (v1 x hx).2
    have hLr : (L : ℝ) ≤ 2 ^ 20 := by exact_mod_cast hL
    have hL0 : (0 : ℝ) ≤ L := by positivity
    have hroot : |root vs - norm2 gs| ≤ ((L : ℝ) + 2) / 2 ^ 23 * norm2 gs + 1 / 2 ^ 54 := by
      unfold root norm2
      refine sqrt_close hv0 v0 (by positivity) (by positivity) (v2.trans ?_)
      have : (gs.length : ℝ) / 2 ^ 129 ≤ (1 / 2 ^ 54 : ℝ) ^ 2 := by
        have : (gs.length : ℝ) ≤ 2 ^ 20 := by exact_mod_cast hgs
        rw [div_le_iff₀ (by positivity)]
        refine this.trans ?_
        norm_num
      linarith
    have hN0 : 0 ≤ norm2 gs := Real.sqrt_nonneg _
    set N := norm2 gs with hN
    set S := root vs with hS
    have hp : (0 : ℝ) < N + 1e-7 := by norm_num; linarith
    set η : ℝ := ((L : ℝ) + 3) / 2 ^ 23 with hη
    have hη0 : 0 ≤ η := by positivity
    have hη4 : η ≤ 1 / 4 := by
      rw [hη, div_le_div_iff₀ (by positivity) (by positivity)]
      have e20 : (2 : ℝ) ^ 20 = 1048576 := by norm_num
      rw [e20] at hLr
      norm_num
      linarith
    have hSN : |(S + 1e-7) - (N + 1e-7)| ≤ η * (N + 1e-7) := by
      rw [show S + 1e-7 - (N + 1e-7) = S - N by ring]
      refine hroot.trans ?_
      have e1 : η * (N + 1e-7) = ((L : ℝ) + 2) / 2 ^ 23 * N + 1 / 2 ^ 23 * N + η * 1e-7 := by rw [hη]; ring
      have e2 : (3 : ℝ) / 2 ^ 23 ≤ η := by
        rw [hη]; apply div_le_div_of_nonneg_right _ (by positivity); linarith
      rw [e1]
      have : 0 ≤ 1 / 2 ^ 23 * N := by positivity
      have e3 : (1 : ℝ) / 2 ^ 54 ≤ η * 1e-7 := by
        refine le_trans ?_ (mul_le_mul_of_nonneg_right e2 (by norm_num))
        norm_num
      linarith
    obtain ⟨hs0, hquot⟩ := quot_close hK hp hη0 hη4 hSN
    have all2 : ∀ f : F32.W → F32.W, (∀ g ∈ gs, ∀ x ∈ g, Clipped K N L x (f x)) →
        List.Forall₂ (List.Forall₂ (Clipped K N L)) gs (gs.map fun g => g.map f) := by
      intro f h
      rw [List.forall₂_map_right_iff, List.forall₂_same]
      intro g hg
      rw [List.forall₂_map_right_iff, List.forall₂_same]
      exact h g hg
    have hη' : ((L : ℝ) + 4) / 2 ^ 23 = η + 1 / 2 ^ 23 := by rw [hη]; ring
    obtain ⟨b1, b2⟩ := abs_le.mp hSN
    cases e : coef vs with
    | none =>
      rw [e] at hm
      obtain rfl : gs' = gs := hm
      have hk := hc.keep vs hvl v1 e
      have := all2 id fun g hg x hxg => by
        refine ⟨(hx g hg x hxg).1, le_rfl, fun _ => rfl, fun h => absurd hk (not_le.mpr (h.trans_le ?_))⟩
        rw [hη', ← hS]
        generalize S + 1e-7 = s at *
        generalize N + 1e-7 = n at *
        have : n * (1 - η) * (1 - 1 / 2 ^ 30) ≤ s * (1 - 1 / 2 ^ 30) := by
          apply mul_le_mul_of_nonneg_right _ (by norm_num); linarith
        refine le_trans ?_ this
        rw [mul_assoc]
        apply mul_le_mul_of_nonneg_left _ hp.le
        norm_num
        linarith
      simpa using this
    | some c =>
      rw [e] at hm
      obtain ⟨k1, k2, k3, k4, k5⟩ := hc.scale vs c hvl v1 e
      rw [(forall₂_scale _ _ _ _).mp hm]
      refine all2 (fun v => mulIeee v c) fun g hg x hxg => ?_
      rw [← hS] at k1 k5
      have hq0 : 0 < K / (N + 1e-7) := div_pos hK hp
      have hcq : |val c - K / (N + 1e-7)| ≤ K / (N + 1e-7) * (2 * η + 1 / 2 ^ 22) + (2 : ℝ) ^ (-149 : Int) := by
        have t := abs_sub_le (val c) (K / (S + 1e-7)) (K / (N + 1e-7))
        have u := (abs_le.mp hquot).2
        generalize (2 : ℝ) ^ (-149 : Int) = D at *
        generalize K / (S + 1e-7) = q' at *
        generalize K / (N + 1e-7) = q at *
        have w : 2 * η * q ≤ 1 / 2 * q := by apply mul_le_mul_of_nonneg_right _ hq0.le; linarith
        have z : q' / 2 ^ 23 ≤ q / 2 ^ 22 := by
          rw [div_le_div_iff₀ (by positivity) (by positivity)]; norm_num; linarith
        have y : q * (2 * η + 1 / 2 ^ 22) = 2 * η * q + q / 2 ^ 22 := by ring
        rw [y]; linarith
      obtain ⟨f, s, d⟩ := cell_two (hx g hg x hxg).1 k2 k3 k4 hcq
      refine ⟨f, s, fun h => absurd k1 (not_le.mpr (lt_of_le_of_lt ?_ h)), fun _ => d.trans ?_⟩
      · rw [hη']
        generalize S + 1e-7 = s at *
        generalize N + 1e-7 = n at *
        have : s * (1 + 1 / 2 ^ 30) ≤ n * (1 + η) * (1 + 1 / 2 ^ 30) := by
          apply mul_le_mul_of_nonneg_right _ (by norm_num); linarith
        refine this.trans ?_
        rw [mul_assoc]
        apply mul_le_mul_of_nonneg_left _ hp.le
        norm_num
        linarith
      · have d2 : (2 : ℝ) ^ (-148 : Int) = 2 * (2 : ℝ) ^ (-149 : Int) := by
          rw [show (-148 : Int) = 1 + -149 by norm_num, zpow_add₀ (by norm_num)]; norm_num
        have dp : (0 : ℝ) < (2 : ℝ) ^ (-149 : Int) := by positivity
        have hη'' : ((L : ℝ) + 5) / 2 ^ 22 = 2 * η + 2 / 2 ^ 22 := by rw [hη]; ring
        rw [d2, hη'']
        have hX := abs_nonneg (val x)
        generalize (2 : ℝ) ^ (-149 : Int) = D at *
        generalize (2 : ℝ) ^ (-150 : Int) = E at *
        generalize K / (N + 1e-7) = q at *
        generalize |val x| = X at *
        have e1 : X * (q * (2 * η + 1 / 2 ^ 22) + D) + X * (q + (q * (2 * η + 1 / 2 ^ 22) + D)) / 2 ^ 24 =
            X * q * (2 * η + 1 / 2 ^ 22) + X * q * (1 + 2 * η + 1 / 2 ^ 22) / 2 ^ 24 + X * D + X * D / 2 ^ 24 := by ring
        rw [e1, show X * (2 * D) = 2 * (X * D) by ring]
        have p1 : 0 ≤ X * D := by positivity
        have p2 : 0 ≤ X * q := by positivity
        generalize X * D = P at *
        generalize X * q = Q at *
        have e2 : Q * (1 + 2 * η + 1 / 2 ^ 22) / 2 ^ 24 ≤ Q * (1 / 2 ^ 22) := by
          rw [mul_div_assoc]
          apply mul_le_mul_of_nonneg_left _ p2
          rw [div_le_iff₀ (by positivity)]
          norm_num
          linarith
        have e3 : Q * (2 * η + 2 / 2 ^ 22) = Q * (2 * η + 1 / 2 ^ 22) + Q * (1 / 2 ^ 22) := by ring
        have e4 : P / 2 ^ 24 ≤ P := by apply div_le_self p1; norm_num
        rw [e3]; linarith

/-! ### The norm of the result -/

theorem sq_sum_nonneg (g : List F32.W) : 0 ≤ (g.map fun x => val x ^ 2).sum := by
  apply List.sum_nonneg
  intro a ha
  obtain ⟨x, _, rfl⟩ := List.mem_map.mp ha
  positivity

theorem abs_le_norm {gs : List (List F32.W)} {g : List F32.W} (hg : g ∈ gs) {x : F32.W} (hx : x ∈ g) : |val x| ≤ norm2 gs := by
  unfold norm2
  apply Real.abs_le_sqrt
  have h1 : val x ^ 2 ≤ (g.map fun x => val x ^ 2).sum := List.single_le_sum (fun a ha => by
    obtain ⟨x, _, rfl⟩ := List.mem_map.mp ha
    positivity) _ (List.mem_map_of_mem (f := fun x => val x ^ 2) hx)
  have h2 : (g.map fun x => val x ^ 2).sum ≤ (gs.map fun g => (g.map fun x => val x ^ 2).sum).sum := List.single_le_sum (fun a ha => by
    obtain ⟨g, _, rfl⟩ := List.mem_map.mp ha
    exact sq_sum_nonneg g) _ (List.mem_map_of_mem (f := fun g : List F32.W => (g.map fun x => val x ^ 2).sum) hg)
  exact h1.trans h2

theorem sq_bound {m E B : ℝ} (hm : 0 ≤ m) (hE : 0 ≤ E) {g g' : List F32.W} (h : List.Forall₂ (fun x r => |val r| ≤ m * |val x| + E) g g')
    (hB : ∀ x ∈ g, |val x| ≤ B) : (g'.map fun x => val x ^ 2).sum ≤ m ^ 2 * (g.map fun x => val x ^ 2).sum + g.length * (2 * (m * B) * E + E ^ 2) := by
  induction h with
  | nil => simp
  | @cons x r g g' hx _ ih =>
    have i := ih fun y hy => hB y (by simp [hy])
    have hb := hB x (by simp)
    simp only [List.map_cons, List.sum_cons, List.length_cons]
    push_cast
    have h1 : val r ^ 2 ≤ m ^ 2 * val x ^ 2 + (2 * (m * B) * E + E ^ 2) := by
      rw [← sq_abs, ← sq_abs (val x)]
      have h2 : |val r| ^ 2 ≤ (m * |val x| + E) ^ 2 := pow_le_pow_left₀ (abs_nonneg _) hx 2
      have h3 : m * |val x| * E ≤ m * B * E := mul_le_mul_of_nonneg_right (mul_le_mul_of_nonneg_left hb hm) hE
      nlinarith
    linarith

theorem norm_bound {m E : ℝ} {L : Nat} (hm : 0 ≤ m) (hE : 0 ≤ E) {gs gs' : List (List F32.W)} (hl : gs.length ≤ 2 ^ 20) (hL : L ≤ 2 ^ 20)
    (hn : ∀ g ∈ gs, g.length ≤ L) (h : List.Forall₂ (List.Forall₂ fun x r => |val r| ≤ m * |val x| + E) gs gs') :
    norm2 gs' ≤ m * norm2 gs + 2 ^ 40 * E := by
  have hN : 0 ≤ norm2 gs := Real.sqrt_nonneg _
  have hB : ∀ g ∈ gs, ∀ x ∈ g, |val x| ≤ norm2 gs := fun g hg x hx => abs_le_norm hg hx
  have hsq : norm2 gs ^ 2 = (gs.map fun g => (g.map fun x => val x ^ 2).sum).sum := by
    unfold norm2
    apply Real.sq_sqrt
    apply List.sum_nonneg
    intro a ha
    obtain ⟨g, _, rfl⟩ := List.mem_map.mp ha
    exact sq_sum_nonneg g
  generalize norm2 gs = N at *
  have hc : 0 ≤ 2 * (m * N) * E + E ^ 2 := by positivity
  have key : (gs'.map fun g => (g.map fun x => val x ^ 2).sum).sum ≤
      m ^ 2 * (gs.map fun g => (g.map fun x => val x ^ 2).sum).sum + gs.length * (2 ^ 20 * (2 * (m * N) * E + E ^ 2)) := by
    clear hsq hl
    induction h with
    | nil => simp
    | @cons g g' gs gs' hg _ ih =>
      have i := ih (fun k hk => hn k (by simp [hk])) (fun k hk => hB k (by simp [hk]))
      have j := sq_bound hm hE hg (hB g (by simp))
      have hgl : (g.length : ℝ) ≤ 2 ^ 20 := by exact_mod_cast (hn g (by simp)).trans hL
      have k := mul_le_mul_of_nonneg_right hgl hc
      simp only [List.map_cons, List.sum_cons, List.length_cons]
      push_cast
      generalize 2 * (m * N) * E + E ^ 2 = C at *
      generalize (g.map fun x => val x ^ 2).sum = A1 at *
      generalize (g'.map fun x => val x ^ 2).sum = A2 at *
      generalize (gs.map fun g => (g.map fun x => val x ^ 2).sum).sum = A3 at *
      generalize (gs'.map fun g => (g.map fun x => val x ^ 2).sum).sum = A4 at *
      have e : m ^ 2 * (A1 + A3) + ((gs.length : ℝ) + 1) * (2 ^ 20 * C) = m ^ 2 * A1 + 2 ^ 20 * C + (m ^ 2 * A3 + gs.length * (2 ^ 20 * C)) := by ring
      rw [e]; linarith
  have hl' : (gs.length : ℝ) ≤ 2 ^ 20 := by exact_mod_cast hl
  have k2 := mul_le_mul_of_nonneg_right hl' (show 0 ≤ 2 ^ 20 * (2 * (m * N) * E + E ^ 2) by positivity)
  rw [norm2]
  apply Real.sqrt_le_iff.mpr
  refine ⟨by positivity, key.trans ?_⟩
  rw [← hsq]
  have p1 : 0 ≤ m * N * E := by positivity
  have p2 : 0 ≤ E ^ 2 := by positivity
  have e1 : (2 : ℝ) ^ 20 * (2 ^ 20 * (2 * (m * N) * E + E ^ 2)) = 2 ^ 40 * (2 * (m * N * E)) + 2 ^ 40 * E ^ 2 := by ring
  have e2 : (m * N + 2 ^ 40 * E) ^ 2 = m ^ 2 * N ^ 2 + 2 ^ 40 * (2 * (m * N * E)) + 2 ^ 80 * E ^ 2 := by ring
  rw [e1] at k2
  rw [e2]
  have e3 : (2 : ℝ) ^ 40 * E ^ 2 ≤ 2 ^ 80 * E ^ 2 := mul_le_mul_of_nonneg_right (by norm_num) p2
  linarith

/-- **C106, the norm of the result.**  The Euclidean norm of all clipped gradients together is at most `MaxNorm` up to rounding. -/
theorem clip_norm_partial (cpu : Cpu) {K : ℝ} (hK : 0 < K) {coef : List F32.W → Option F32.W} (hc : GoodRoot K coef) {L : Nat} (hL : L ≤ 2 ^ 20)
    {gs gs' : List (List F32.W)} (hgs : gs.length ≤ 2 ^ 20) (hn : ∀ g ∈ gs, g.length ≤ L)
    (hx : ∀ g ∈ gs, ∀ x ∈ g, F32.Finite x ∧ |val x| ≤ 2 ^ 50) (h : ClipTwo cpu coef gs gs') :
    norm2 gs' ≤ K * (1 + (L + 5) / 2 ^ 22) + norm2 gs * (2 : ℝ) ^ (-148 : Int) + (2 : ℝ) ^ (-110 : Int) := by
  have hcl := (clip_partial cpu hK hc hL hgs hn hx).2 gs' h
  have hN : 0 ≤ norm2 gs := Real.sqrt_nonneg _
  have hp : (0 : ℝ) < norm2 gs + 1e-7 := by norm_num; linarith
  have hL0 : (0 : ℝ) ≤ L := by positivity
  have hLr : (L : ℝ) ≤ 2 ^ 20 := by exact_mod_cast hL
  have hE : (2 : ℝ) ^ 40 * (2 : ℝ) ^ (-150 : Int) = (2 : ℝ) ^ (-110 : Int) := by norm_num
  have hD : (0 : ℝ) < (2 : ℝ) ^ (-148 : Int) := by positivity
  by_cases hlt : K < (norm2 gs + 1e-7) * (1 - (L + 4) / 2 ^ 23)
  · set q := K / (norm2 gs + 1e-7) with hq
    have hq0 : 0 < q := div_pos hK hp
    have hb := norm_bound (m := q * (1 + (L + 5) / 2 ^ 22) + (2 : ℝ) ^ (-148 : Int)) (E := (2 : ℝ) ^ (-150 : Int)) (by positivity) (by positivity) hgs hL hn
      (hcl.imp fun g g' k => k.imp fun x r c => by
        have h1 := c.close hlt
        rw [← hq] at h1
        have h2 := abs_sub_abs_le_abs_sub (val r) (val x * q)
        rw [abs_mul, abs_of_pos hq0] at h2
        have e : (q * (1 + (L + 5) / 2 ^ 22) + (2 : ℝ) ^ (-148 : Int)) * |val x| =
          |val x| * q + |val x| * q * ((L + 5) / 2 ^ 22) + |val x| * (2 : ℝ) ^ (-148 : Int) := by ring
        rw [e]; linarith)
    rw [hE] at hb
    refine hb.trans ?_
    have hqN : q * norm2 gs ≤ K := by
      rw [hq, div_mul_eq_mul_div, div_le_iff₀ hp]
      apply mul_le_mul_of_nonneg_left _ hK.le
      norm_num
    have := mul_le_mul_of_nonneg_right hqN (show (0 : ℝ) ≤ 1 + (L + 5) / 2 ^ 22 by positivity)
    have e : (q * (1 + (L + 5) / 2 ^ 22) + (2 : ℝ) ^ (-148 : Int)) * norm2 gs =
      q * norm2 gs * (1 + (L + 5) / 2 ^ 22) + norm2 gs * (2 : ℝ) ^ (-148 : Int) := by ring
    rw [e]; linarith
  · have hge := not_lt.mp hlt
    have hb := norm_bound (m := 1) (E := 0) (by norm_num) le_rfl hgs hL hn
      (hcl.imp fun g g' k => k.imp fun x r c => by rw [one_mul, add_zero]; exact c.smaller)
    rw [one_mul, mul_zero, add_zero] at hb
    have p1 : 0 ≤ norm2 gs * (2 : ℝ) ^ (-148 : Int) := by positivity
    have p2 : (0 : ℝ) < (2 : ℝ) ^ (-110 : Int) := by positivity
    have ha : ((L : ℝ) + 4) / 2 ^ 23 ≤ 1 / 4 := by
      rw [div_le_div_iff₀ (by positivity) (by positivity)]
      have e20 : (2 : ℝ) ^ 20 = 1048576 := by norm_num
      rw [e20] at hLr
      norm_num
      linarith
    have ha0 : (0 : ℝ) ≤ ((L : ℝ) + 4) / 2 ^ 23 := by positivity
    have e5 : ((L : ℝ) + 5) / 2 ^ 22 = 2 * (((L : ℝ) + 4) / 2 ^ 23) + 1 / 2 ^ 22 := by ring
    rw [e5]
    generalize ((L : ℝ) + 4) / 2 ^ 23 = a at *
    have h1 : norm2 gs + 1e-7 ≤ K * (1 + 2 * a) := by
      have h2 : (norm2 gs + 1e-7) * (1 - a) * (1 + 2 * a) ≤ K * (1 + 2 * a) := mul_le_mul_of_nonneg_right hge (by linarith)
      have h3 : (1 : ℝ) ≤ (1 - a) * (1 + 2 * a) := by nlinarith
      have h4 := mul_le_mul_of_nonneg_left h3 hp.le
      rw [mul_one, ← mul_assoc] at h4
      exact h4.trans h2
    have h5 : K * (1 + 2 * a) ≤ K * (1 + (2 * a + 1 / 2 ^ 22)) := by
      apply mul_le_mul_of_nonneg_left _ hK.le
      have : (0 : ℝ) ≤ 1 / 2 ^ 22 := by positivity
      linarith
    have h6 : norm2 gs ≤ norm2 gs + 1e-7 := by norm_num
    linarith

/-! ### Overflow -/

theorem sumSq_plus {cpu : Cpu} {g : List F32.W} {v : F32.W} (h : SumSq cpu g v) (hx : ∀ x ∈ g, F32.Finite x) : Plus v := by
  obtain ⟨sq, ⟨-, rfl⟩, h⟩ := h
  have := sum1_rel blow_rel (junk := (1, 0)) (fun w h => absurd h (by simp)) h (fun _ => (0, 0)) (fun i hi _ => ⟨by
    have hi' : i < g.length := by simpa using hi
    have hf : F32.Finite ((g.map absW).getD i 0) := by rw [abs_get hi']; exact absW_finite (hx _ (get_mem hi'))
    rw [zget _ (by simpa using hi') rfl]
    rcases (mul_plus hf hf rfl).1 with hf | hf
    · exact .inl ⟨hf, mul_nonneg' hf (mul_self_nonneg _)⟩
    · exact .inr hf, fun h => absurd rfl h⟩)
  exact (this (by rw [Prod.fst_sum]; simp)).1

/-- **C106, overflow.**  When all gradients are finite and one element is above 2^64 in absolute value, clipping makes every element of
every gradient zero. -/
theorem clip_overflow (cpu : Cpu) {K : ℝ} {coef : List F32.W → Option F32.W} (hc : GoodRoot K coef) {gs gs' : List (List F32.W)}
    (hx : ∀ g ∈ gs, ∀ x ∈ g, F32.Finite x) (hbig : ∃ g ∈ gs, ∃ x ∈ g, 2 ^ 64 < |val x|) (h : ClipTwo cpu coef gs gs') :
    List.Forall₂ (List.Forall₂ fun _ r => F32.Finite r ∧ val r = 0) gs gs' := by
  obtain ⟨vs, hvs, hm⟩ := h
  have hp : (∀ v ∈ vs, Plus v) ∧ posInf ∈ vs := by
    clear hm
    induction hvs with
    | nil => obtain ⟨g, h, -⟩ := hbig; cases h
    | @cons g v gs vs hg hr ih =>
      have pv := sumSq_plus hg (hx g (by simp))
      have pr : ∀ w ∈ vs, Plus w := by
        clear ih hbig
        induction hr with
        | nil => simp
        | @cons g' v' gs vs hg' _ ih' =>
          intro w hw
          rcases List.mem_cons.mp hw with rfl | hw
          · exact sumSq_plus hg' (hx g' (by simp))
          · exact ih' (fun k hk => hx k (by
              rcases List.mem_cons.mp hk with rfl | hk
              · simp
              · simp [hk])) w hw
      refine ⟨fun w hw => ?_, ?_⟩
      · rcases List.mem_cons.mp hw with rfl | hw
        · exact pv
        · exact pr w hw
      · obtain ⟨g', hg', x, hxg, hb⟩ := hbig
        rcases List.mem_cons.mp hg' with rfl | hg'
        · obtain ⟨sq, h1, h2⟩ := hg
          obtain ⟨j, hj, rfl⟩ := List.getElem_of_mem hxg
          have : v = posInf := by
            refine sumSq_blow h1 h2 (fun i hi => ?_) (j := j) (by simpa using hj) ?_
            · have hi' : i < g'.length := by simpa using hi
              rw [abs_get hi']; exact absW_finite (hx _ (by simp) _ (get_mem hi'))
            · unfold vals
              rw [abs_get hj, absW_val, abs_abs, List.getD_eq_getElem _ _ hj]
              exact hb
          rw [this]; simp
        · exact List.mem_cons_of_mem _ (ih (fun k hk => hx k (by simp [hk])) ⟨g', hg', x, hxg, hb⟩).2
  rw [hc.inf vs hp.2 hp.1] at hm
  rw [(forall₂_scale _ _ _ _).mp hm, List.forall₂_map_right_iff, List.forall₂_same]
  intro g hg
  rw [List.forall₂_map_right_iff, List.forall₂_same]
  intro x hxg
  have := mul_unit (hx g hg x hxg) zero_finite.1 zero_exact (by rw [val_zero, mul_zero, abs_zero]) (by unfold maxFin; norm_num)
  exact ⟨this.1, abs_nonpos_iff.mp this.2⟩

/-! ### A coefficient as float64 arithmetic gives it exists -/

theorem exists_root : ∃ coef, GoodRoot 8 coef := by
  classical
  have one : val (0x3f800000 : F32.W) = 1 := F32.one_val
  have ex : ∀ s : ℝ, 0 ≤ s → s ≤ 2 ^ 100 → 8 < s + 1e-7 → ∃ c, F32.Finite c ∧ 0 ≤ val c ∧ val c ≤ 1 ∧
      |val c - 8 / (s + 1e-7)| ≤ 8 / (s + 1e-7) / 2 ^ 23 + (2 : ℝ) ^ (-149 : Int) := by
    intro s hp hm hlt
    have hp1 : (0 : ℝ) < s + 1e-7 := by linarith
    set r := (8 : ℝ) / (s + 1e-7) with hr
    have r0 : 0 < r := by positivity
    have r1 : r < 1 := by rw [hr, div_lt_one hp1]; exact hlt
    have rl : (2 : ℝ) ^ (-126 : Int) ≤ |r| := by
      rw [abs_of_pos r0, hr, le_div_iff₀ hp1]
      have : s + 1e-7 ≤ 2 ^ 129 := by
        norm_num at *
        linarith
      calc (2 : ℝ) ^ (-126 : Int) * (s + 1e-7) ≤ (2 : ℝ) ^ (-126 : Int) * 2 ^ 129 := mul_le_mul_of_nonneg_left this (by positivity)
        _ = 8 := by norm_num
    obtain ⟨c, hc, hcr⟩ := Crf32.exists_near rl (by rw [abs_of_pos r0]; exact r1.le.trans (by norm_num))
    rw [abs_of_pos r0] at hcr
    have dp : (0 : ℝ) < (2 : ℝ) ^ (-149 : Int) := by positivity
    by_cases h : val c ≤ 1
    · refine ⟨c, hc, ?_, h, by linarith⟩
      have := (abs_le.mp hcr).1
      have : r / 2 ^ 23 ≤ r := by apply div_le_self r0.le; norm_num
      linarith
    · refine ⟨0x3f800000, by unfold F32.Finite; decide, by rw [one]; norm_num, one.le, ?_⟩
      rw [one, abs_of_pos (by linarith)]
      have := (abs_le.mp hcr).2
      linarith
  have no : ∀ {vs : List F32.W}, (∀ v ∈ vs, F32.Finite v ∧ 0 ≤ val v) → posInf ∉ vs := fun h k => not_finite_inf.1 (h _ k).1
  have up : ∀ {vs : List F32.W}, vs.length ≤ 2 ^ 20 → (∀ v ∈ vs, F32.Finite v ∧ 0 ≤ val v) → root vs ≤ 2 ^ 100 := by
    intro vs hl h
    unfold root
    apply Real.sqrt_le_iff.mpr
    refine ⟨by positivity, ?_⟩
    have h1 : (vs.map val).sum ≤ (vs.map val).length • maxFin := List.sum_le_card_nsmul _ _ fun a ha => by
      obtain ⟨v, hv, rfl⟩ := List.mem_map.mp ha
      exact (le_abs_self _).trans (abs_val_le (h v hv).1)
    rw [nsmul_eq_mul, List.length_map] at h1
    have h2 : (vs.length : ℝ) ≤ 2 ^ 20 := by exact_mod_cast hl
    have h3 : (vs.length : ℝ) * maxFin ≤ 2 ^ 20 * maxFin := mul_le_mul_of_nonneg_right h2 (by unfold maxFin; norm_num)
    refine (h1.trans h3).trans ?_
    unfold maxFin
    norm_num
  refine ⟨fun vs => if posInf ∈ vs then some 0 else if h : root vs ≤ 2 ^ 100 ∧ 8 < root vs + 1e-7 then
    some (Classical.choose (ex (root vs) (Real.sqrt_nonneg _) h.1 h.2)) else none, ⟨?_, ?_, ?_⟩⟩
  · intro vs hl hv h
    beta_reduce at h
    rw [if_neg (no hv)] at h
    split at h
    · cases h
    · rename_i h'
      have : root vs + 1e-7 ≤ 8 := not_lt.mp fun k => h' ⟨up hl hv, k⟩
      have := Real.sqrt_nonneg (vs.map val).sum
      change 0 ≤ root vs at this
      norm_num at *
      linarith
  · intro vs c hl hv h
    beta_reduce at h
    rw [if_neg (no hv)] at h
    split at h
    · rename_i h'
      cases h
      refine ⟨?_, Classical.choose_spec (ex (root vs) (Real.sqrt_nonneg _) h'.1 h'.2)⟩
      have := h'.2
      norm_num at *
      linarith
    · cases h
  · intro vs h _
    beta_reduce
    rw [if_pos h]

/-- Gradients 100 and -3, 1 for the first theorem; with 2^65 for the 100 the second. -/
example (cpu : Cpu) : ∃ coef, GoodRoot 8 coef ∧
    (∃ gs', ClipTwo cpu coef [[0x42c80000], [0xc0400000, 0x3f800000]] gs' ∧
      List.Forall₂ (List.Forall₂ (Clipped 8 (norm2 [[0x42c80000], [0xc0400000, 0x3f800000]]) 2)) [[0x42c80000], [0xc0400000, 0x3f800000]] gs' ∧
      norm2 gs' ≤ 8 * (1 + ((2 : ℕ) + 5) / 2 ^ 22) + norm2 [[0x42c80000], [0xc0400000, 0x3f800000]] * (2 : ℝ) ^ (-148 : Int) + (2 : ℝ) ^ (-110 : Int)) ∧
    ∀ gs', ClipTwo cpu coef [[0x60000000], [0xc0400000, 0x3f800000]] gs' →
      List.Forall₂ (List.Forall₂ fun (_ r : F32.W) => F32.Finite r ∧ val r = 0) [[0x60000000], [0xc0400000, 0x3f800000]] gs' := by
  obtain ⟨coef, hc⟩ := exists_root
  have a1 : val (0x42c80000 : F32.W) = 100 := by simp [val, unpack]; norm_num
  have a2 : val (0xc0400000 : F32.W) = -3 := by simp [val, unpack]; norm_num
  have a3 : val (0x3f800000 : F32.W) = 1 := F32.one_val
  have a4 : val (0x60000000 : F32.W) = 2 ^ 65 := by simp [val, unpack]; norm_num
  refine ⟨coef, hc, ?_, fun gs' h => ?_⟩
  · have hx : ∀ g ∈ ([[0x42c80000], [0xc0400000, 0x3f800000]] : List (List F32.W)), ∀ x ∈ g, F32.Finite x ∧ |val x| ≤ 2 ^ 50 := by
      intro g hg x hx
      simp only [List.mem_cons, List.not_mem_nil, or_false] at hg
      rcases hg with rfl | rfl
      · simp only [List.mem_cons, List.not_mem_nil, or_false] at hx
        subst hx
        exact ⟨by simp [F32.Finite], by rw [a1]; norm_num⟩
      · simp only [List.mem_cons, List.not_mem_nil, or_false] at hx
        rcases hx with rfl | rfl
        · exact ⟨by simp [F32.Finite], by rw [a2]; norm_num⟩
        · exact ⟨by simp [F32.Finite], by rw [a3]; norm_num⟩
    obtain ⟨⟨gs', h⟩, k⟩ := clip_partial cpu (K := 8) (by norm_num) hc (L := 2) (by norm_num) (by norm_num) (by simp) hx
    exact ⟨gs', h, k gs' h, clip_norm_partial cpu (K := 8) (by norm_num) hc (L := 2) (by norm_num) (by norm_num) (by simp) hx h⟩
  · exact clip_overflow cpu hc (by simp [F32.Finite]) ⟨[0x60000000], by simp, 0x60000000, by simp, by rw [a4]; norm_num⟩ h

end Verif.ClipTwo32
