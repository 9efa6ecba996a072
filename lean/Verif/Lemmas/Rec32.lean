import Verif.Spec.Rec32
import Verif.Lemmas.F32Unit
import Verif.Props.Acts32

set_option autoImplicit false
set_option linter.unusedSimpArgs false

namespace Verif.Rec32
open Verif.F32 Verif.Asm Verif.Spec Verif.Spec.Kernels Verif.Net32 Verif.Spec.Net32 Verif.Spec.Rec32 Verif.Softmax32

/-! ### Lists -/

theorem Within.mem {n : Nat} {x : List F32.W} {B : ℝ} (h : Within n x B) : ∀ v ∈ x, F32.Finite v ∧ |val v| ≤ B := fun v hv => by
  obtain ⟨i, hi, rfl⟩ := List.mem_iff_getElem.mp hv
  have := h.2 i (h.1 ▸ hi)
  rwa [List.getD_eq_getElem _ _ hi] at this

theorem getD_zip {f : F32.W → F32.W → F32.W} {a b : List F32.W} {n i : Nat} (ha : a.length = n) (hb : b.length = n) (hi : i < n) :
    (List.zipWith f a b).getD i 0 = f (a.getD i 0) (b.getD i 0) := by
  rw [List.getD_eq_getElem _ _ (by simp [ha, hb, hi]), List.getElem_zipWith, List.getD_eq_getElem _ _ (by omega),
    List.getD_eq_getElem _ _ (by omega)]

theorem getD_map {f : F32.W → F32.W} {a : List F32.W} {i : Nat} (hi : i < a.length) : (a.map f).getD i 0 = f (a.getD i 0) := by
  rw [List.getD_eq_getElem _ _ (by simpa using hi), List.getElem_map, List.getD_eq_getElem _ _ hi]

/-! ### A matrix times a vector -/

theorem prod_ok (cpu : Cpu) {rows cols : Nat} {w y : List F32.W} {X : ℝ} (hX0 : 0 ≤ X) (hX : X ≤ 2 ^ 50)
    (hc : cols ≤ 2 ^ 20) (hw : w.length = rows * cols) (hwv : ∀ v ∈ w, F32.Finite v ∧ |val v| ≤ 2 ^ 50) (hy : Within cols y X) :
    (∃ z, MulVec cpu cols w y 0 rows z) ∧ ∀ z, MulVec cpu cols w y 0 rows z → z.length = rows ∧ ∀ i < rows, F32.Finite (z.getD i 0) ∧
      |val (z.getD i 0) - ∑ k ∈ Finset.range cols, at2 cols w i k * vals y k| ≤ dotErr cols (Net32.norm rows cols w) X := by
  have hΛ : ∀ i < rows, ∑ k ∈ Finset.range cols, |at2 cols w i k| ≤ Net32.norm rows cols w := fun i hi =>
    le_largest (f := fun i => ∑ k ∈ Finset.range cols, |at2 cols w i k|) hi
  have hrow : ∀ i < rows, RowOk cpu cols w y (fun i v => F32.Finite v ∧
      |val v - ∑ k ∈ Finset.range cols, at2 cols w i k * vals y k| ≤ dotErr cols (Net32.norm rows cols w) X) i := by
    intro i hi
    have hlen : ((w.drop (i * cols)).take cols).length = y.length := by
      rw [List.length_take, List.length_drop, hw, hy.1]
      have : (i + 1) * cols ≤ rows * cols := Nat.mul_le_mul_right _ hi
      have e : (i + 1) * cols = i * cols + cols := by ring
      omega
    have hsum : ∀ (f : ℝ → Nat → ℝ), ∑ k ∈ Finset.range y.length, f (val (((w.drop (i * cols)).take cols).getD k 0)) k =
        ∑ k ∈ Finset.range cols, f (at2 cols w i k) k := by
      intro f
      rw [hy.1]
      refine Finset.sum_congr rfl fun k hk => ?_
      rw [row_get hw hi (Finset.mem_range.mp hk)]; rfl
    have := dot_ok cpu hlen (by rw [hy.1]; exact hc) (fun v hv => hwv v (List.mem_of_mem_drop (List.mem_of_mem_take hv)))
      hX (Within.mem hy) (Λ := Net32.norm rows cols w) (by rw [hsum fun a _ => |a|]; exact hΛ i hi) hX0
    refine ⟨this.1, fun v hv => ?_⟩
    have := this.2 v hv
    rw [hsum fun a k => a * val (y.getD k 0), hy.1] at this
    exact this
  obtain ⟨⟨z, hz⟩, hall⟩ := mulVec_ok cpu hw hrow rows 0 (by omega)
  rw [zero_mul] at hz hall
  refine ⟨⟨z, hz⟩, fun z hz => ?_⟩
  obtain ⟨h1, h2⟩ := hall z hz
  refine ⟨h1, fun i hi => ?_⟩
  have := h2 i hi
  rwa [zero_add] at this

/-! ### The affine function of a gate -/

/-- The previous output as numbers; before the first input it is zero. -/
noncomputable def pv (prev : Option (List F32.W)) : Nat → ℝ := fun i => (prev.map fun y => vals y i).getD 0

theorem pre_ok (cpu : Cpu) {n m : Nat} {g : Gate} {X : ℝ} (hg : Fits n m g X) {x : List F32.W} (hx : Within m x X)
    {prev : Option (List F32.W)} (hp : ∀ y, prev = some y → Within n y 1) :
    (∃ z, Pre cpu n m g x prev z) ∧ ∀ z, Pre cpu n m g x prev z → z.length = n ∧ ∀ i < n, F32.Finite (z.getD i 0) ∧
      |val (z.getD i 0) - pre n m g (vals x) (pv prev) i| ≤ preErr n m g X := by
  have ht : 0 ≤ top n m g.w g.b X := top_nonneg hg.x0
  have hN : 0 ≤ Net32.norm n n g.wRec := largest_nonneg _ _
  have hD : 0 ≤ dotErr n (Net32.norm n n g.wRec) 1 := dotErr_nonneg hN zero_le_one
  have htop : top n m g.w g.b X ≤ maxFin := by
    refine le_trans ?_ hg.top
    unfold preTop
    have : 0 ≤ (top n m g.w g.b X + (2 : ℝ) ^ (-126 : Int)) / 2 ^ 24 := by positivity
    linarith
  have hpt : 0 ≤ preTop n m g X := by unfold preTop; positivity
  obtain ⟨⟨a, ha⟩, hall⟩ := lin_ok cpu (u := vals x) hg.x0 le_rfl hg.m20 hg.w hg.b hg.wv hg.bv (by rw [add_zero]; exact hg.x50)
    (by rw [add_zero]; exact htop) (x := x) ⟨hx.1, fun i hi => ⟨(hx.2 i hi).1, by unfold vals; simp, (hx.2 i hi).2⟩⟩
  simp only [mul_zero, zero_add, add_zero] at hall
  cases prev with
  | none =>
    refine ⟨⟨a, ha⟩, fun z hz => ?_⟩
    obtain ⟨h1, h2⟩ := hall z hz
    refine ⟨h1, fun i hi => ?_⟩
    obtain ⟨h3, h4, -⟩ := h2 i hi
    refine ⟨h3, ?_⟩
    have e : pre n m g (vals x) (pv none) i = ∑ k ∈ Finset.range m, at2 m g.w i k * vals x k + val (g.b.getD i 0) := by
      unfold pre pv; simp
    rw [e]
    refine h4.trans ?_
    unfold preErr
    have : 0 ≤ (preTop n m g X + (2 : ℝ) ^ (-126 : Int)) / 2 ^ 24 := by positivity
    linarith
  | some y =>
    have hy := hp y rfl
    obtain ⟨⟨v, hv⟩, hvall⟩ := prod_ok cpu (rows := n) zero_le_one (by norm_num) hg.n20 hg.wRec hg.wRecv hy
    constructor
    · exact ⟨_, a, v, ha, hy.1, hv, (addIn_iff cpu a v _).mpr ⟨(hall a ha).1.trans (hvall v hv).1.symm, rfl⟩⟩
    · rintro z ⟨a', v', ha', -, hv', hz⟩
      obtain ⟨-, rfl⟩ := (addIn_iff cpu a' v' z).mp hz
      obtain ⟨a1, a2⟩ := hall a' ha'
      obtain ⟨v1, v2⟩ := hvall v' hv'
      refine ⟨by simp [a1, v1], fun i hi => ?_⟩
      obtain ⟨fa, ea, ma⟩ := a2 i hi
      obtain ⟨fv, ev⟩ := v2 i hi
      rw [getD_zip a1 v1 hi]
      have hΛ : ∑ k ∈ Finset.range n, |at2 n g.wRec i k| ≤ Net32.norm n n g.wRec :=
        le_largest (f := fun i => ∑ k ∈ Finset.range n, |at2 n g.wRec i k|) hi
      have d0 := sum_dev hΛ zero_le_one fun k hk => (hy.2 k hk).2
      rw [mul_one] at d0
      have hsum : |val (a'.getD i 0) + val (v'.getD i 0)| ≤ preTop n m g X := by
        refine (abs_add_le _ _).trans ?_
        unfold preTop
        have e1 := abs_sub_abs_le_abs_sub (val (a'.getD i 0)) (∑ k ∈ Finset.range m, at2 m g.w i k * vals x k + val (g.b.getD i 0))
        have e2 := abs_sub_abs_le_abs_sub (val (v'.getD i 0)) (∑ k ∈ Finset.range n, at2 n g.wRec i k * vals y k)
        have d0' : |∑ k ∈ Finset.range n, at2 n g.wRec i k * vals y k| ≤ Net32.norm n n g.wRec := d0
        have e3 : Net32.norm n m g.w * X + bias n g.b + dotErr m (Net32.norm n m g.w) X = top n m g.w g.b X := by unfold top; ring
        linarith
      have fz := add_fin fa fv (hsum.trans hg.top)
      refine ⟨fz, ?_⟩
      have ez := add_near_fin fz
      have hsl : slack (val (a'.getD i 0) + val (v'.getD i 0)) ≤ (preTop n m g X + (2 : ℝ) ^ (-126 : Int)) / 2 ^ 24 := by
        unfold slack
        refine div_le_div_of_nonneg_right (max_le ?_ ?_) (by positivity)
        · linarith [show (0 : ℝ) < (2 : ℝ) ^ (-126 : Int) by positivity]
        · linarith [abs_nonneg (val (a'.getD i 0) + val (v'.getD i 0))]
      have e : pre n m g (vals x) (pv (some y)) i = ∑ k ∈ Finset.range m, at2 m g.w i k * vals x k + val (g.b.getD i 0) +
          ∑ k ∈ Finset.range n, at2 n g.wRec i k * vals y k := by unfold pre pv; simp
      rw [e]
      unfold preErr
      beta_reduce at ea
      generalize (preTop n m g X + (2 : ℝ) ^ (-126 : Int)) / 2 ^ 24 = T at *
      generalize (top n m g.w g.b X + (2 : ℝ) ^ (-126 : Int)) / 2 ^ 24 = T' at *
      obtain ⟨p1, p2⟩ := abs_le.mp ea
      obtain ⟨p3, p4⟩ := abs_le.mp ev
      obtain ⟨p5, p6⟩ := abs_le.mp ez
      exact abs_le.mpr ⟨by linarith, by linarith⟩

/-! ### Gates -/

theorem preErr_nonneg {n m : Nat} {g : Gate} {X : ℝ} (hX : 0 ≤ X) : 0 ≤ preErr n m g X := by
  have h1 : 0 ≤ top n m g.w g.b X := top_nonneg hX
  have h2 : 0 ≤ Net32.norm n n g.wRec := largest_nonneg _ _
  have h3 : 0 ≤ dotErr n (Net32.norm n n g.wRec) 1 := dotErr_nonneg h2 zero_le_one
  have h4 : 0 ≤ dotErr m (Net32.norm n m g.w) X := dotErr_nonneg (largest_nonneg _ _) hX
  unfold preErr preTop
  positivity

/-- `z` has `n` elements from `lo` to 1, close to `u`. -/
def Gated (n : Nat) (z : List F32.W) (lo : ℝ) (u : Nat → ℝ) (E : ℝ) : Prop :=
  z.length = n ∧ ∀ i < n, F32.Finite (z.getD i 0) ∧ lo ≤ val (z.getD i 0) ∧ val (z.getD i 0) ≤ 1 ∧ |val (z.getD i 0) - u i| ≤ E

theorem sig_ok {M : Machine} (hM : GoodLib M.lib) {n m : Nat} {g : Gate} {X : ℝ} (hg : Fits n m g X) {x : List F32.W}
    (hx : Within m x X) {prev : Option (List F32.W)} (hp : ∀ y, prev = some y → Within n y 1) :
    (∃ z, SigGate M n m g x prev z) ∧ ∀ z, SigGate M n m g x prev z →
      Gated n z 0 (fun i => Sigmoid32.sigmoid (pre n m g (vals x) (pv prev) i)) (sigErr n m g X) := by
  obtain ⟨⟨a, ha⟩, hall⟩ := pre_ok M.cpu hg hx hp
  have hfin : ∀ a, Pre M.cpu n m g x prev a → ∀ v ∈ a, F32.Finite v := fun a ha v hv => by
    obtain ⟨h1, h2⟩ := hall a ha
    obtain ⟨i, hi, rfl⟩ := List.mem_iff_getElem.mp hv
    have := (h2 i (h1 ▸ hi)).1
    rwa [List.getD_eq_getElem _ _ hi] at this
  constructor
  · obtain ⟨z, hz⟩ := (Sigmoid32.sigmoid_close M.cpu M.lane hM.exp (hfin a ha)).1
    exact ⟨z, a, ha, hz⟩
  · rintro z ⟨a', ha', hz⟩
    obtain ⟨h1, h2⟩ := hall a' ha'
    obtain ⟨s1, s2⟩ := (Sigmoid32.sigmoid_close M.cpu M.lane hM.exp (hfin a' ha')).2 z hz
    refine ⟨by omega, fun i hi => ?_⟩
    obtain ⟨t1, t2, t3, t4⟩ := s2 i (by omega)
    refine ⟨t1, t2, t3, ?_⟩
    have e1 := (h2 i hi).2
    have e2 := sigmoid_lip (val (a'.getD i 0)) (pre n m g (vals x) (pv prev) i)
    have e3 := abs_sub_le (val (z.getD i 0)) (Sigmoid32.sigmoid (val (a'.getD i 0))) (Sigmoid32.sigmoid (pre n m g (vals x) (pv prev) i))
    unfold sigErr
    linarith

theorem tanh_ok {M : Machine} (hM : GoodLib M.lib) {n m : Nat} {g : Gate} {X : ℝ} (hg : Fits n m g X) {x : List F32.W}
    (hx : Within m x X) {prev : Option (List F32.W)} (hp : ∀ y, prev = some y → Within n y 1) :
    (∃ z, TanhGate M n m g x prev z) ∧ ∀ z, TanhGate M n m g x prev z →
      Gated n z (-1) (fun i => Real.tanh (pre n m g (vals x) (pv prev) i)) (tanhErr n m g X) := by
  obtain ⟨⟨a, ha⟩, hall⟩ := pre_ok M.cpu hg hx hp
  refine ⟨⟨_, a, ha, rfl⟩, ?_⟩
  rintro z ⟨a', ha', rfl⟩
  obtain ⟨h1, h2⟩ := hall a' ha'
  refine ⟨by simp [h1], fun i hi => ?_⟩
  obtain ⟨f1, e1⟩ := h2 i hi
  rw [getD_map (by omega)]
  obtain ⟨t1, t2, t3⟩ := hM.tanh _ f1
  refine ⟨t1, (abs_le.mp t2).1, (abs_le.mp t2).2, ?_⟩
  have e2 := tanh_lip (val (a'.getD i 0)) (pre n m g (vals x) (pv prev) i)
  have e3 := abs_sub_le (val (M.lib.tanh (a'.getD i 0))) (Real.tanh (val (a'.getD i 0))) (Real.tanh (pre n m g (vals x) (pv prev) i))
  unfold tanhErr
  linarith

theorem sigmoid_unit (x : ℝ) : 0 ≤ Sigmoid32.sigmoid x ∧ Sigmoid32.sigmoid x ≤ 1 := by
  unfold Spec.Sigmoid32.sigmoid
  have h := Real.exp_pos (-x)
  exact ⟨by positivity, by rw [div_le_one (by positivity)]; linarith⟩

theorem tanh_unit (x : ℝ) : |Real.tanh x| ≤ 1 := by
  rw [tanh_sigmoid]
  have := sigmoid_unit (2 * x)
  exact abs_le.mpr ⟨by linarith, by linarith⟩

/-! ### Operations on vectors -/

theorem addNew_iff (cpu : Cpu) (a b z : List F32.W) :
    AddNew cpu a b z ↔ a.length = b.length ∧ z = List.zipWith addIeee a b := by
  have main : ∀ (p q r : Nat) (s : St F32.W), q % 4 = 0 → Apart 4 a.length p r → Apart 4 a.length q r →
      elems 4 s.mem p a.length = a → elems 4 s.mem q a.length = b →
      ∃ s', (∀ t, Call (frame3 4 (F32.alu divIeee) ⟨p, a.length⟩ ⟨q, a.length⟩ ⟨r, a.length⟩)
        (addFn cpu .f32) s t ↔ t = s') ∧ elems 4 s'.mem r a.length = List.zipWith addIeee a b := by
    intro p q r s hq h1 h2 h3 h4
    obtain ⟨s', g1, g2, -⟩ := add_kernel cpu .f32 (F32.alu divIeee) (x1 := ⟨p, a.length⟩) (x2 := ⟨q, a.length⟩)
      (y := ⟨r, a.length⟩) le_rfl le_rfl hq (.inr h1) (.inr h2) s
    refine ⟨s', g1, ?_⟩
    have := g2
    simp only [Sz.bytes, h3, h4] at this
    exact this
  constructor
  · rintro ⟨hl, p, q, r, s, t, hq, h1, h2, h3, h4, h5, h6⟩
    obtain ⟨s', g1, g2⟩ := main p q r s hq h1 h2 h3 h4
    obtain rfl := (g1 t).mp h5
    exact ⟨hl, by rw [← h6, g2]⟩
  · rintro ⟨hl, rfl⟩
    have h2 : elems 4 (stateOf a b).mem (4 * a.length) a.length = b := by
      rw [show elems 4 (stateOf a b).mem (4 * a.length) a.length = elems 4 (memOf a b) (4 * a.length) b.length by rw [hl]; rfl]
      exact memOf_snd a b
    have ha : Apart 4 a.length 0 (8 * a.length) := by unfold Apart; omega
    have hb : Apart 4 a.length (4 * a.length) (8 * a.length) := by unfold Apart; omega
    obtain ⟨s', g1, g2⟩ := main 0 (4 * a.length) (8 * a.length) (stateOf a b) (by omega) ha hb (memOf_fst a b) h2
    exact ⟨hl, 0, 4 * a.length, 8 * a.length, stateOf a b, s', by omega, ha, hb, memOf_fst a b, h2, (g1 s').mpr rfl, g2⟩

theorem revSub_iff (cpu : Cpu) (x z : List F32.W) :
    RevSub cpu x z ↔ z = x.map fun v => addIeee (mulIeee v 0xbf800000) 0x3f800000 := by
  have main : ∀ (p q : Nat) (s : St F32.W), Apart 4 x.length p q → elems 4 s.mem p x.length = x →
      ∃ s₁ t, (∀ t', Call (frameC 4 (F32.alu divIeee) 0xbf800000 ⟨p, x.length⟩ ⟨q, x.length⟩) (mulConstFn cpu .f32) s t' ↔ t' = s₁) ∧
        (∀ t', Call (frameC 4 (F32.alu divIeee) 0x3f800000 ⟨q, x.length⟩ ⟨q, x.length⟩) (addConstFn cpu .f32) s₁ t' ↔ t' = t) ∧
        elems 4 t.mem q x.length = x.map fun v => addIeee (mulIeee v 0xbf800000) 0x3f800000 := by
    intro p q s ha hp
    obtain ⟨s₁, c1, e1, -⟩ := mulConst_kernel cpu .f32 (F32.alu divIeee) (c := 0xbf800000) (x := ⟨p, x.length⟩)
      (y := ⟨q, x.length⟩) (fun a => F32.mul_comm' a 0xbf800000) le_rfl (.inr ha) s
    obtain ⟨t, c2, e2, -⟩ := addConst_kernel cpu .f32 (F32.alu divIeee) (c := 0x3f800000) (x := ⟨q, x.length⟩)
      (y := ⟨q, x.length⟩) (fun a => F32.add_comm' a 0x3f800000) le_rfl (.inl rfl) s₁
    refine ⟨s₁, t, c1, c2, ?_⟩
    have e1' : elems 4 s₁.mem q x.length = (elems 4 s.mem p x.length).map fun v => mulIeee v 0xbf800000 := e1
    have e2' : elems 4 t.mem q x.length = (elems 4 s₁.mem q x.length).map fun v => addIeee v 0x3f800000 := e2
    rw [e2', e1', hp, List.map_map]
    rfl
  constructor
  · rintro ⟨p, q, s, s₁, t, ha, hp, h1, h2, h3⟩
    obtain ⟨s₁', t', g1, g2, g3⟩ := main p q s ha hp
    obtain rfl := (g1 s₁).mp h1
    obtain rfl := (g2 t).mp h2
    rw [← h3, g3]
  · rintro rfl
    have ha : Apart 4 x.length 0 (4 * x.length) := by unfold Apart; omega
    obtain ⟨s₁, t, g1, g2, g3⟩ := main 0 (4 * x.length) (stateOf x []) ha (memOf_fst x [])
    exact ⟨0, 4 * x.length, stateOf x [], s₁, t, ha, memOf_fst x [], (g1 _).mpr rfl, (g2 _).mpr rfl, g3⟩

/-- A product of two words, rounded, for exact factors `A` and `B`. -/
theorem mul_err {a b : F32.W} (ha : F32.Finite a) (hb : F32.Finite b) {A B Ea Eb K : ℝ} (h1 : |val a| ≤ 1) (h2 : |val b| ≤ K)
    (hK : 1 ≤ K) (hKm : K ≤ maxFin) (hB : |B| ≤ K) (ea : |val a - A| ≤ Ea) (eb : |val b - B| ≤ Eb) :
    |val (mulIeee a b) - A * B| ≤ K * Ea + Eb + K / 2 ^ 24 := by
  have hab : |val a * val b| ≤ K := by
    rw [abs_mul]
    calc _ ≤ 1 * K := mul_le_mul h1 h2 (abs_nonneg _) zero_le_one
      _ = K := one_mul K
  have hf := mul_fin ha hb (hab.trans hKm)
  have e := mul_near_fin hf
  have hs : slack (val a * val b) ≤ K / 2 ^ 24 := by
    unfold slack
    refine div_le_div_of_nonneg_right (max_le hab (le_trans ?_ hK)) (by positivity)
    norm_num
  have h3 : |val a * val b - A * B| ≤ K * Ea + Eb := by
    have : val a * val b - A * B = val a * (val b - B) + (val a - A) * B := by ring
    rw [this]
    refine (abs_add_le _ _).trans ?_
    rw [abs_mul, abs_mul]
    have i1 : |val a| * |val b - B| ≤ 1 * Eb := mul_le_mul h1 eb (abs_nonneg _) zero_le_one
    have i2 : |val a - A| * |B| ≤ Ea * K := mul_le_mul ea hB (abs_nonneg _) ((abs_nonneg _).trans ea)
    linarith
  have := abs_sub_le (val (mulIeee a b)) (val a * val b) (A * B)
  linarith

end Verif.Rec32
