import Verif.Spec.Net32
import Verif.Lemmas.DotFinite
import Verif.Lemmas.Softmax32
import Mathlib.Data.List.GetD

set_option autoImplicit false
set_option linter.unusedSimpArgs false

namespace Verif.Net32
open Verif.F32 Verif.Asm Verif.Spec Verif.Spec.Kernels Verif.Spec.Net32 Verif.Softmax32

/-! ### Data in memory -/

/-- A memory with `l` at 0 and `k` behind it. -/
def memOf (l k : List F32.W) : Nat → F32.W := fun a => (l ++ k).getD (a / 4) 0

theorem memOf_fst (l k : List F32.W) : elems 4 (memOf l k) 0 l.length = l := by
  apply List.ext_getElem
  · simp [elems]
  · intro i h1 h2
    have : (0 + 4 * i) / 4 = i := by omega
    simp only [elems, List.getElem_map, List.getElem_range, memOf, this]
    rw [List.getD_eq_getElem _ _ (by simp; omega), List.getElem_append_left h2]

theorem memOf_snd (l k : List F32.W) : elems 4 (memOf l k) (4 * l.length) k.length = k := by
  apply List.ext_getElem
  · simp [elems]
  · intro i h1 h2
    have : (4 * l.length + 4 * i) / 4 = l.length + i := by omega
    simp only [elems, List.getElem_map, List.getElem_range, memOf, this]
    rw [List.getD_eq_getElem _ _ (by simp; omega), List.getElem_append_right (by omega)]
    simp

/-- Some state with this memory. -/
def stateOf (l k : List F32.W) : St F32.W :=
  { r := fun _ => 0, zf := false, lt := false, v := fun _ _ => 0, mem := memOf l k, out := none }

theorem sum_zip {f : F32.W → F32.W → ℝ} {l k : List F32.W} (h : l.length = k.length) :
    (List.zipWith f l k).sum = ∑ i ∈ Finset.range k.length, f (l.getD i 0) (k.getD i 0) := by
  rw [sum_range_list]
  congr 1
  apply List.ext_getElem
  · simp [h]
  · intro i h1 h2
    simp only [List.length_zipWith, lt_min_iff] at h1
    simp only [List.getElem_zipWith, List.getElem_map, List.getElem_range]
    rw [List.getD_eq_getElem _ _ h1.1, List.getD_eq_getElem _ _ h1.2]

/-! ### One dot product -/

theorem growth_dot {n : Nat} (h : n ≤ 2 ^ 20) : growth Asm.ulp n ≤ n / 2 ^ 23 := by
  have hnr : (n : ℝ) ≤ 1048576 := by exact_mod_cast (show n ≤ 1048576 from h)
  have h0 : (0 : ℝ) ≤ n := Nat.cast_nonneg n
  have hu : (n : ℝ) * Asm.ulp = n / 2 ^ 24 := by unfold Asm.ulp; ring
  have h1 : (n : ℝ) / 2 ^ 24 ≤ 1 / 16 := by rw [div_le_iff₀ (by positivity)]; norm_num; linarith
  refine (Dense.growth_le Asm.ulp_nonneg (by rw [hu]; linarith)).trans ?_
  rw [hu, div_le_iff₀ (by linarith)]
  have : (n : ℝ) / 2 ^ 23 = 2 * (n / 2 ^ 24) := by ring
  rw [this]
  nlinarith [show (0 : ℝ) ≤ n / 2 ^ 24 by positivity]

theorem dot_ok (cpu : Cpu) {l k : List F32.W} (hlen : l.length = k.length) (hn : k.length ≤ 2 ^ 20)
    (hl : ∀ v ∈ l, F32.Finite v ∧ |val v| ≤ 2 ^ 50) {X : ℝ} (hX : X ≤ 2 ^ 50)
    (hk : ∀ v ∈ k, F32.Finite v ∧ |val v| ≤ X) {Λ : ℝ} (hΛ : ∑ i ∈ Finset.range k.length, |val (l.getD i 0)| ≤ Λ)
    (hX0 : 0 ≤ X) :
    (∃ w, Dot1 cpu l k w) ∧ ∀ w, Dot1 cpu l k w → F32.Finite w ∧
      |val w - ∑ i ∈ Finset.range k.length, val (l.getD i 0) * val (k.getD i 0)| ≤ dotErr k.length Λ X := by
  have main : ∀ (p q : Nat) (s : St F32.W), q % 4 = 0 → elems 4 s.mem p l.length = l → elems 4 s.mem q k.length = k →
      ∃ s' w, (∀ t, Call (frame2 4 (F32.alu divIeee) ⟨p, l.length⟩ ⟨q, k.length⟩) (dotProdFn cpu .f32) s t ↔ t = s') ∧
        s'.out = some w ∧ F32.Finite w ∧
        |val w - ∑ i ∈ Finset.range k.length, val (l.getD i 0) * val (k.getD i 0)| ≤ dotErr k.length Λ X := by
    intro p q s hq hp1 hq1
    have hq2 : elems 4 s.mem q l.length = k := by rw [hlen]; exact hq1
    obtain ⟨s', w, g1, g2, -, g4, g5⟩ := dot_small divIeee cpu (x1 := ⟨p, l.length⟩) (x2 := ⟨q, k.length⟩) hlen.le hq s
      (by show l.length ≤ 2 ^ 22; omega) (K := 2 ^ 50) (by norm_num) le_rfl
      (by simp only [hp1]; exact hl) (by simp only [hq1]; exact fun v hv => ⟨(hk v hv).1, (hk v hv).2.trans hX⟩)
    simp only [hp1, hq2] at g5
    rw [sum_zip hlen, sum_zip hlen] at g5
    refine ⟨s', w, g1, g2, g4, g5.trans ?_⟩
    unfold dotErr
    have hg := growth_dot (hlen.le.trans hn)
    rw [hlen] at hg
    rw [hlen]
    have hs : ∑ i ∈ Finset.range k.length, (|val (l.getD i 0)| + tiny) * (|val (k.getD i 0)| + tiny) ≤
        (Λ + k.length / 2 ^ 63) * (X + 1 / 2 ^ 63) := by
      calc _ ≤ ∑ i ∈ Finset.range k.length, (|val (l.getD i 0)| + tiny) * (X + tiny) := by
            refine Finset.sum_le_sum fun i hi => mul_le_mul_of_nonneg_left ?_ (add_nonneg (abs_nonneg _) tiny_pos.le)
            have hi' := Finset.mem_range.mp hi
            rw [List.getD_eq_getElem _ _ hi']
            linarith [(hk _ (List.getElem_mem hi')).2]
        _ = (∑ i ∈ Finset.range k.length, |val (l.getD i 0)| + k.length * tiny) * (X + tiny) := by
            rw [← Finset.sum_mul, Finset.sum_add_distrib]; simp
        _ ≤ _ := by
            have e1 : (k.length : ℝ) * tiny = k.length / 2 ^ 63 := by unfold tiny; ring
            rw [e1]
            refine mul_le_mul (by linarith) (by unfold tiny; exact le_rfl) (by linarith [tiny_pos]) ?_
            have : 0 ≤ Λ := (Finset.sum_nonneg fun _ _ => abs_nonneg _).trans hΛ
            positivity
    exact mul_le_mul hg hs (Finset.sum_nonneg fun _ _ => mul_nonneg (add_nonneg (abs_nonneg _) tiny_pos.le)
      (add_nonneg (abs_nonneg _) tiny_pos.le)) (by positivity)
  constructor
  · obtain ⟨s', w, g1, g2, -⟩ := main 0 (4 * l.length) (stateOf l k) (by omega) (memOf_fst l k) (memOf_snd l k)
    exact ⟨w, 0, 4 * l.length, stateOf l k, s', by omega, memOf_fst l k, memOf_snd l k, (g1 s').mpr rfl, g2⟩
  · rintro w ⟨p, q, s, t, hq, h1, h2, h3, h4⟩
    obtain ⟨s', w', g1, g2, g3, g4⟩ := main p q s hq h1 h2
    obtain rfl := (g1 t).mp h3
    rw [g2] at h4; cases h4
    exact ⟨g3, g4⟩

/-! ### The product -/

/-- What is known of one row. -/
def RowOk (cpu : Cpu) (cols : Nat) (data x : List F32.W) (P : Nat → F32.W → Prop) (i : Nat) : Prop :=
  (∃ w, Dot1 cpu ((data.drop (i * cols)).take cols) x w) ∧
    ∀ w, Dot1 cpu ((data.drop (i * cols)).take cols) x w → P i w

theorem mulVec_ok (cpu : Cpu) {cols rows : Nat} {data x : List F32.W} {P : Nat → F32.W → Prop} (hd : data.length = rows * cols)
    (h : ∀ i < rows, RowOk cpu cols data x P i) (n i : Nat) (hi : i + n = rows) :
    (∃ y, MulVec cpu cols data x (i * cols) n y) ∧
      ∀ y, MulVec cpu cols data x (i * cols) n y → y.length = n ∧ ∀ j < n, P (i + j) (y.getD j 0) := by
  induction n generalizing i with
  | zero => exact ⟨⟨[], rfl⟩, fun y hy => ⟨by rw [show y = [] from hy]; rfl, fun j hj => absurd hj (by omega)⟩⟩
  | succ n ih =>
    have hs : (i + 1) * cols = i * cols + cols := by ring
    have hb : i * cols + cols ≤ data.length := by rw [hd, ← hs]; exact Nat.mul_le_mul_right _ (by omega)
    obtain ⟨⟨w, hw⟩, hP⟩ := h i (by omega)
    obtain ⟨⟨ws, hws⟩, hr⟩ := ih (i + 1) (by omega)
    rw [hs] at hws hr
    refine ⟨⟨w :: ws, w, ws, rfl, hb, hw, hws⟩, ?_⟩
    rintro y ⟨w', ws', rfl, -, h2, h3⟩
    obtain ⟨r1, r2⟩ := hr ws' h3
    refine ⟨by simp [r1], fun j hj => ?_⟩
    cases j with
    | zero => exact hP w' h2
    | succ j =>
      have := r2 j (by omega)
      rw [show i + 1 + j = i + (j + 1) by omega] at this
      exact this

/-! ### The bias -/

theorem addIn_iff (cpu : Cpu) (y b z : List F32.W) :
    AddIn cpu y b z ↔ y.length = b.length ∧ z = List.zipWith addIeee y b := by
  have main : ∀ (p q : Nat) (s : St F32.W), q % 4 = 0 → Apart 4 y.length q p → elems 4 s.mem p y.length = y →
      elems 4 s.mem q y.length = b → ∃ s', (∀ t, Call (frame3 4 (F32.alu divIeee) ⟨p, y.length⟩ ⟨q, y.length⟩ ⟨p, y.length⟩)
        (addFn cpu .f32) s t ↔ t = s') ∧ elems 4 s'.mem p y.length = List.zipWith addIeee y b := by
    intro p q s hq ha h1 h2
    obtain ⟨s', g1, g2, -⟩ := add_kernel cpu .f32 (F32.alu divIeee) (x1 := ⟨p, y.length⟩) (x2 := ⟨q, y.length⟩)
      (y := ⟨p, y.length⟩) le_rfl le_rfl hq (.inl rfl) (.inr ha) s
    refine ⟨s', g1, ?_⟩
    have := g2
    simp only [Sz.bytes, h1, h2] at this
    exact this
  constructor
  · rintro ⟨hl, p, q, s, t, hq, ha, h1, h2, h3, h4⟩
    obtain ⟨s', g1, g2⟩ := main p q s hq ha h1 h2
    obtain rfl := (g1 t).mp h3
    exact ⟨hl, by rw [← h4, g2]⟩
  · rintro ⟨hl, rfl⟩
    have h2 : elems 4 (stateOf y b).mem (4 * y.length) y.length = b := by
      rw [show elems 4 (stateOf y b).mem (4 * y.length) y.length = elems 4 (memOf y b) (4 * y.length) b.length by rw [hl]; rfl]
      exact memOf_snd y b
    have ha : Apart 4 y.length (4 * y.length) 0 := by
      unfold Apart; omega
    obtain ⟨s', g1, g2⟩ := main 0 (4 * y.length) (stateOf y b) (by omega) ha (memOf_fst y b) h2
    exact ⟨hl, 0, 4 * y.length, stateOf y b, s', by omega, ha, memOf_fst y b, h2, (g1 s').mpr rfl, g2⟩

/-! ### The largest of some numbers -/

theorem le_largest {n : Nat} {f : Nat → ℝ} {i : Nat} (h : i < n) : f i ≤ largest n f := by
  unfold largest
  have : ∀ (l : List ℝ) (v : ℝ), v ∈ l → v ≤ l.foldr max 0 := by
    intro l
    induction l with
    | nil => simp
    | cons a l ih =>
      intro v hv
      rcases List.mem_cons.mp hv with rfl | hv
      · exact le_max_left _ _
      · exact (ih v hv).trans (le_max_right _ _)
  exact this _ _ (List.mem_map.mpr ⟨i, List.mem_range.mpr h, rfl⟩)

theorem largest_nonneg (n : Nat) (f : Nat → ℝ) : 0 ≤ largest n f := by
  unfold largest
  induction (List.range n).map f with
  | nil => exact le_rfl
  | cons a l ih => exact ih.trans (le_max_right _ _)

theorem dotErr_nonneg {n : Nat} {Λ X : ℝ} (h1 : 0 ≤ Λ) (h2 : 0 ≤ X) : 0 ≤ dotErr n Λ X := by unfold dotErr; positivity

/-! ### One layer -/

/-- The values `x` of `n` words are within `E` of the numbers `u`, which are up to `M`. -/
def Close (n : Nat) (x : List F32.W) (u : Nat → ℝ) (M E : ℝ) : Prop :=
  x.length = n ∧ ∀ i < n, F32.Finite (x.getD i 0) ∧ |val (x.getD i 0) - u i| ≤ E ∧ |u i| ≤ M

theorem sum_dev {n : Nat} {a u : Nat → ℝ} {Λ M : ℝ} (ha : ∑ k ∈ Finset.range n, |a k| ≤ Λ) (hM : 0 ≤ M)
    (hu : ∀ k < n, |u k| ≤ M) : |∑ k ∈ Finset.range n, a k * u k| ≤ Λ * M := by
  refine (Finset.abs_sum_le_sum_abs _ _).trans ?_
  refine (Finset.sum_le_sum (g := fun k => |a k| * M) fun k hk => ?_).trans ?_
  · rw [abs_mul]; exact mul_le_mul_of_nonneg_left (hu k (Finset.mem_range.mp hk)) (abs_nonneg _)
  · rw [← Finset.sum_mul]; exact mul_le_mul_of_nonneg_right ha hM

theorem row_get {cols rows : Nat} {w : List F32.W} (hw : w.length = rows * cols) {i k : Nat} (hi : i < rows) (hk : k < cols) :
    ((w.drop (i * cols)).take cols).getD k 0 = w.getD (i * cols + k) 0 := by
  rw [List.getD_eq_getElem?_getD, List.getD_eq_getElem?_getD, List.getElem?_take, if_pos hk, List.getElem?_drop]

theorem lin_ok (cpu : Cpu) {rows cols : Nat} {w b x : List F32.W} {u : Nat → ℝ} {M E : ℝ} (hM : 0 ≤ M) (hE : 0 ≤ E)
    (hc : cols ≤ 2 ^ 20) (hw : w.length = rows * cols) (hb : b.length = rows)
    (hwv : ∀ v ∈ w, F32.Finite v ∧ |val v| ≤ 2 ^ 50) (hbv : ∀ v ∈ b, F32.Finite v) (hME : M + E ≤ 2 ^ 50)
    (htop : top rows cols w b (M + E) ≤ maxFin) (hx : Close cols x u M E) :
    (∃ z, Affine cpu rows cols w b x z) ∧ ∀ z, Affine cpu rows cols w b x z →
      Close rows z (fun i => (∑ k ∈ Finset.range cols, at2 cols w i k * u k) + val (b.getD i 0))
        (norm rows cols w * M + bias rows b)
        (norm rows cols w * E + dotErr cols (norm rows cols w) (M + E) + (top rows cols w b (M + E) + (2 : ℝ) ^ (-126 : Int)) / 2 ^ 24) := by
  obtain ⟨hxl, hxv⟩ := hx
  set Λ := norm rows cols w with hΛd
  have hΛ0 : 0 ≤ Λ := largest_nonneg _ _
  have hX : ∀ i < cols, |val (x.getD i 0)| ≤ M + E := fun i hi => by
    have h1 := (hxv i hi).2.1
    have h2 := (hxv i hi).2.2
    have h3 := abs_sub_abs_le_abs_sub (val (x.getD i 0)) (u i)
    linarith
  have hΛ : ∀ i < rows, ∑ k ∈ Finset.range cols, |at2 cols w i k| ≤ Λ := fun i hi => le_largest (f := fun i => ∑ k ∈ Finset.range cols, |at2 cols w i k|) hi
  -- the rows
  have hrow : ∀ i < rows, RowOk cpu cols w x (fun i v => F32.Finite v ∧
      |val v - ∑ k ∈ Finset.range cols, at2 cols w i k * val (x.getD k 0)| ≤ dotErr cols Λ (M + E)) i := by
    intro i hi
    have hlen : ((w.drop (i * cols)).take cols).length = x.length := by
      rw [List.length_take, List.length_drop, hw, hxl]
      have : (i + 1) * cols ≤ rows * cols := Nat.mul_le_mul_right _ hi
      have e : (i + 1) * cols = i * cols + cols := by ring
      omega
    have hsum : ∀ (f : ℝ → Nat → ℝ), ∑ k ∈ Finset.range x.length, f (val (((w.drop (i * cols)).take cols).getD k 0)) k =
        ∑ k ∈ Finset.range cols, f (at2 cols w i k) k := by
      intro f
      rw [hxl]
      refine Finset.sum_congr rfl fun k hk => ?_
      rw [row_get hw hi (Finset.mem_range.mp hk)]; rfl
    have := dot_ok cpu hlen (by rw [hxl]; exact hc) (fun v hv => hwv v (List.mem_of_mem_drop (List.mem_of_mem_take hv)))
      hME (fun v hv => by
        obtain ⟨k, hk, rfl⟩ := List.mem_iff_getElem.mp hv
        have h1 := hxv k (hxl ▸ hk)
        have h2 := hX k (hxl ▸ hk)
        rw [List.getD_eq_getElem _ _ hk] at h1 h2
        exact ⟨h1.1, h2⟩) (Λ := Λ) (by rw [hsum fun a _ => |a|]; exact hΛ i hi) (by linarith)
    refine ⟨this.1, fun v hv => ?_⟩
    have := this.2 v hv
    rw [hsum fun a k => a * val (x.getD k 0), hxl] at this
    exact this
  obtain ⟨⟨y, hy⟩, hall⟩ := mulVec_ok cpu hw hrow rows 0 (by omega)
  rw [zero_mul] at hy hall
  have hylen := (hall y hy).1
  refine ⟨⟨_, hxl, y, hy, (addIn_iff cpu y b _).mpr ⟨hylen.trans hb.symm, rfl⟩⟩, ?_⟩
  rintro z ⟨-, y', hy', hz⟩
  obtain ⟨hl, rfl⟩ := (addIn_iff cpu y' b z).mp hz
  obtain ⟨hyl, hyv⟩ := hall y' hy'
  refine ⟨by simp [hyl, hb], fun i hi => ?_⟩
  have hv := hyv i hi
  rw [zero_add] at hv
  obtain ⟨f1, e1⟩ := hv
  have hzi : (List.zipWith addIeee y' b).getD i 0 = addIeee (y'.getD i 0) (b.getD i 0) := by
    rw [List.getD_eq_getElem _ _ (by simp [hyl, hb, hi]), List.getElem_zipWith, List.getD_eq_getElem _ _ (by omega),
      List.getD_eq_getElem _ _ (by omega)]
  rw [hzi]
  have fb : F32.Finite (b.getD i 0) := by
    rw [List.getD_eq_getElem _ _ (by omega)]; exact hbv _ (List.getElem_mem _)
  have hbi : |val (b.getD i 0)| ≤ bias rows b := le_largest (f := fun i => |val (b.getD i 0)|) hi
  have d0 := sum_dev (hΛ i hi) (by linarith) hX
  have d1 := sum_dev (hΛ i hi) hE fun k hk => (hxv k hk).2.1
  have d2 := sum_dev (hΛ i hi) hM fun k hk => (hxv k hk).2.2
  have d3 : ∑ k ∈ Finset.range cols, at2 cols w i k * (val (x.getD k 0) - u k) =
      ∑ k ∈ Finset.range cols, at2 cols w i k * val (x.getD k 0) - ∑ k ∈ Finset.range cols, at2 cols w i k * u k := by
    rw [← Finset.sum_sub_distrib]; exact Finset.sum_congr rfl fun k _ => by ring
  rw [d3] at d1
  have ht : |val (y'.getD i 0) + val (b.getD i 0)| ≤ top rows cols w b (M + E) := by
    refine (abs_add_le _ _).trans ?_
    unfold top
    have := abs_sub_abs_le_abs_sub (val (y'.getD i 0)) (∑ k ∈ Finset.range cols, at2 cols w i k * val (x.getD k 0))
    linarith
  have fz := add_fin f1 fb (ht.trans htop)
  have ez := add_near_fin fz
  have hsl : slack (val (y'.getD i 0) + val (b.getD i 0)) ≤ (top rows cols w b (M + E) + (2 : ℝ) ^ (-126 : Int)) / 2 ^ 24 := by
    unfold slack
    refine div_le_div_of_nonneg_right (max_le ?_ ?_) (by positivity)
    · linarith [show (0 : ℝ) < (2 : ℝ) ^ (-126 : Int) by positivity]
    · linarith [abs_nonneg (val (y'.getD i 0) + val (b.getD i 0))]
  refine ⟨fz, ?_, ?_⟩
  · beta_reduce
    generalize val (addIeee (y'.getD i 0) (b.getD i 0)) = Z at *
    generalize val (y'.getD i 0) = Y at *
    generalize val (b.getD i 0) = B at *
    generalize slack (Y + B) = S at *
    generalize ((top rows cols w b (M + E) + (2 : ℝ) ^ (-126 : Int)) / 2 ^ 24) = T at *
    obtain ⟨p1, p2⟩ := abs_le.mp e1
    obtain ⟨p3, p4⟩ := abs_le.mp d1
    obtain ⟨p5, p6⟩ := abs_le.mp ez
    exact abs_le.mpr ⟨by linarith, by linarith⟩
  · exact (abs_add_le _ _).trans (add_le_add d2 hbi)

/-- The activations. -/
theorem act_ok {α : Type} {F : α → List F32.W → List F32.W → Prop} {φ : α → ℝ → ℝ} {L ε : α → ℝ} (hF : Good F φ L ε) (a : α) {n : Nat}
    {x : List F32.W} {u : Nat → ℝ} {M E : ℝ} (hx : Close n x u M E) :
    (∃ z, F a x z) ∧ ∀ z, F a x z → Close n z (fun i => φ a (u i)) (L a * M + |φ a 0|) (L a * E + ε a) := by
  obtain ⟨hl, hv⟩ := hx
  have hfin : ∀ v ∈ x, F32.Finite v := fun v h => by
    obtain ⟨i, hi, rfl⟩ := List.mem_iff_getElem.mp h
    have := (hv i (hl ▸ hi)).1
    rwa [List.getD_eq_getElem _ _ hi] at this
  refine ⟨hF.ends a x hfin, fun z hz => ?_⟩
  obtain ⟨hlen, hnear⟩ := hF.near a x z hfin hz
  refine ⟨by omega, fun i hi => ?_⟩
  obtain ⟨f, e, m⟩ := hv i hi
  obtain ⟨n1, n2⟩ := hnear i (hl ▸ hi)
  refine ⟨n1, ?_, ?_⟩
  · have h1 := hF.lip a (val (x.getD i 0)) (u i)
    have h2 := mul_le_mul_of_nonneg_left e (hF.pos a).1
    have h3 := abs_sub_le (val (z.getD i 0)) (φ a (val (x.getD i 0))) (φ a (u i))
    linarith
  · have h1 := hF.lip a (u i) 0
    rw [sub_zero] at h1
    have h2 := mul_le_mul_of_nonneg_left m (hF.pos a).1
    have h3 := abs_sub_abs_le_abs_sub (φ a (u i)) (φ a 0)
    linarith

theorem top_nonneg {rows cols : Nat} {w b : List F32.W} {X : ℝ} (h : 0 ≤ X) : 0 ≤ top rows cols w b X := by
  unfold top
  have h1 : 0 ≤ norm rows cols w := largest_nonneg _ _
  have h2 : 0 ≤ bias rows b := largest_nonneg _ _
  have := dotErr_nonneg (n := cols) h1 h
  positivity

end Verif.Net32
