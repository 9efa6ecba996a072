import Verif.Spec.Att32
import Verif.Lemmas.Rec32
import Verif.Props.Gonum
import Verif.Props.Softmax32

set_option autoImplicit false
set_option linter.unusedSimpArgs false

/-!
# The operations of attention on words
-/

namespace Verif.Att32
open Verif.F32 Verif.Asm Verif.Spec Verif.Spec.Kernels Verif.Net32 Verif.Spec.Net32 Verif.Rec32 Verif.Spec.Rec32 Verif.Spec.Att32

/-! ### The operations as functions of lists -/

theorem scale_iff (cpu : Cpu) (c : F32.W) (x z : List F32.W) : Scale cpu c x z ↔ z = x.map fun v => mulIeee v c := by
  have main : ∀ (p q : Nat) (s : St F32.W), Apart 4 x.length p q → elems 4 s.mem p x.length = x →
      ∃ t, (∀ t', Call (frameC 4 (F32.alu divIeee) c ⟨p, x.length⟩ ⟨q, x.length⟩) (mulConstFn cpu .f32) s t' ↔ t' = t) ∧
        elems 4 t.mem q x.length = x.map fun v => mulIeee v c := by
    intro p q s ha hp
    obtain ⟨s₁, c1, e1, -⟩ := mulConst_kernel cpu .f32 (F32.alu divIeee) (c := c) (x := ⟨p, x.length⟩)
      (y := ⟨q, x.length⟩) (fun a => F32.mul_comm' a c) le_rfl (.inr ha) s
    refine ⟨s₁, c1, ?_⟩
    have e1' : elems 4 s₁.mem q x.length = (elems 4 s.mem p x.length).map fun v => mulIeee v c := e1
    rw [e1', hp]
  constructor
  · rintro ⟨p, q, s, t, ha, hp, h1, h3⟩
    obtain ⟨t', g1, g3⟩ := main p q s ha hp
    obtain rfl := (g1 t).mp h1
    rw [← h3, g3]
  · rintro rfl
    have ha : Apart 4 x.length 0 (4 * x.length) := by unfold Apart; omega
    obtain ⟨t, g1, g3⟩ := main 0 (4 * x.length) (stateOf x []) ha (memOf_fst x [])
    exact ⟨0, 4 * x.length, stateOf x [], t, ha, memOf_fst x [], (g1 _).mpr rfl, g3⟩

/-- Some state of the routines of gonum with this memory. -/
def gstate (l k : List F32.W) (f : Nat → Nat) : Gonum.St F32.W :=
  { r := fun _ => 0, zf := false, lt := false, v := fun _ _ => 0, mem := memOf l k, frame := f }

theorem axpy_iff {a : F32.W} {row out z : List F32.W} (hl : row.length = out.length) :
    Axpy a row out z ↔ z = List.zipWith (fun u v => addIeee (mulIeee u a) v) row out := by
  have main : ∀ (p q : Nat) (s : Gonum.St F32.W), q % 4 = 0 → Apart 4 out.length p q → elems 4 s.mem p row.length = row →
      elems 4 s.mem q out.length = out → s.frame = Gonum.axpyToFrame ⟨q, out.length⟩ ⟨p, row.length⟩ ⟨q, out.length⟩ →
      ∃ s', (∀ t, Gonum.Call (Gonum.axpyToEnv .f32 (F32.alu divIeee) a ⟨q, out.length⟩ ⟨p, row.length⟩ ⟨q, out.length⟩)
        (Gonum.axpyUnitaryTo .f32) s t ↔ t = s') ∧
        elems 4 s'.mem q out.length = List.zipWith (fun u v => addIeee (mulIeee u a) v) row out := by
    intro p q s hq ha h1 h2 hf
    have hm : min (min row.length out.length) out.length = out.length := by omega
    obtain ⟨s', g1, g2, -⟩ := Gonum.axpyUnitaryTo_kernel .f32 (F32.alu divIeee) a hf hq (.inr (by rw [hm]; exact ha)) (.inl rfl)
    refine ⟨s', g1, ?_⟩
    simp only [hm] at g2
    have g2' : elems 4 s'.mem q out.length = List.zipWith (fun u v => addIeee (mulIeee u a) v) (elems 4 s.mem p out.length)
      (elems 4 s.mem q out.length) := g2
    rw [g2', h2, ← hl, h1]
  constructor
  · rintro ⟨p, q, s, t, hq, ha, h1, h2, hf, hc, hz⟩
    obtain ⟨s', g1, g2⟩ := main p q s hq ha h1 h2 hf
    obtain rfl := (g1 t).mp hc
    rw [← hz, g2]
  · rintro rfl
    have ha : Apart 4 out.length 0 (4 * row.length) := by unfold Apart; omega
    obtain ⟨s', g1, g2⟩ := main 0 (4 * row.length) (gstate row out (Gonum.axpyToFrame ⟨4 * row.length, out.length⟩ ⟨0, row.length⟩
      ⟨4 * row.length, out.length⟩)) (by omega) ha (memOf_fst row out) (memOf_snd row out) rfl
    exact ⟨0, 4 * row.length, _, s', by omega, ha, memOf_fst row out, memOf_snd row out, rfl, (g1 _).mpr rfl, g2⟩

/-! ### Masks -/

theorem add_negInf {x : F32.W} (h : F32.Finite x) : addIeee x negInf = negInf := by
  have h1 : isNaN x = false := h.not_nan
  have h2 : isInf x = false := h.not_inf
  unfold addIeee
  have h3 : isNaN negInf = false := by decide
  have h4 : isInf negInf = true := by decide
  simp [h1, h2, h3, h4]

theorem add_zero_word {x : F32.W} (h : F32.Finite x) : F32.Finite (addIeee x 0) ∧ val (addIeee x 0) = val x := by
  have h0 : F32.Finite 0 := by unfold F32.Finite; decide
  have hf : F32.Finite (addIeee x 0) := add_fin h h0 (by rw [val_zero, add_zero]; exact (finite_exact h).2)
  refine ⟨hf, le_antisymm ?_ ?_⟩
  · exact F32.add_le hf (finite_exact h).1 (by rw [val_zero, add_zero])
  · exact F32.add_ge hf (finite_exact h).1 (by rw [val_zero, add_zero])

/-! ### Softmax on lists -/

/-- What `Softmax` gives for scores of which at least one is finite. -/
theorem soft_ok {M : Machine} (hM : Softmax32.GoodExp M.lib.exp) {x : List F32.W} (hn : x.length ≤ 2 ^ 20)
    (hx : ∀ i < x.length, Score (x.getD i 0)) (hfin : ∃ i < x.length, F32.Finite (x.getD i 0)) :
    (∃ z, Soft M x z) ∧ ∀ z, Soft M x z → z.length = x.length ∧ ∀ i < x.length, F32.Finite (z.getD i 0) ∧ 0 ≤ val (z.getD i 0) ∧
      (x.getD i 0 = negInf → val (z.getD i 0) = 0) ∧
      |val (z.getD i 0) - Softmax32.softmax x.length (fun k => x.getD k 0) i| ≤
        Softmax32.tol x.length * Softmax32.softmax x.length (fun k => x.getD k 0) i + (2 : ℝ) ^ (-124 : Int) := by
  have hne : x ≠ [] := by
    obtain ⟨i, hi, -⟩ := hfin
    intro h; rw [h] at hi; simp at hi
  have hget : ∀ (m : Nat → F32.W) (p n i : Nat), i < n → (elems 4 m p n).getD i 0 = m (p + 4 * i) := by
    intro m p n i hi
    rw [List.getD_eq_getElem _ _ (by simpa [elems] using hi)]
    simp [elems]
  have main : ∀ (p q : Nat) (s : St F32.W), q % 4 = 0 → Apart 4 x.length p q → elems 4 s.mem p x.length = x →
      ∃ s', (∀ t, Softmax32.Runs M.cpu M.lane M.lib.exp ⟨p, x.length⟩ ⟨q, x.length⟩ s t ↔ t = s') ∧
        ∀ i < x.length, F32.Finite ((elems 4 s'.mem q x.length).getD i 0) ∧ 0 ≤ val ((elems 4 s'.mem q x.length).getD i 0) ∧
        (x.getD i 0 = negInf → val ((elems 4 s'.mem q x.length).getD i 0) = 0) ∧
        |val ((elems 4 s'.mem q x.length).getD i 0) - Softmax32.softmax x.length (fun k => x.getD k 0) i| ≤
          Softmax32.tol x.length * Softmax32.softmax x.length (fun k => x.getD k 0) i + (2 : ℝ) ^ (-124 : Int) := by
    intro p q s hq ha hp
    have hv : ∀ i < x.length, s.mem (p + 4 * i) = x.getD i 0 := fun i hi => by
      rw [← hget s.mem p x.length i hi, hp]
    obtain ⟨s', g1, -, g2⟩ := Verif.Softmax32.softmax_runs M.cpu M.lane hM (x := ⟨p, x.length⟩) (out := ⟨q, x.length⟩) rfl hn hq ha s
      (fun i hi => by rw [hv i hi]; exact hx i hi)
      (by obtain ⟨i, hi, hf⟩ := hfin; exact ⟨i, hi, by rw [hv i hi]; exact hf⟩)
    have hsm : ∀ i < x.length, Softmax32.softmax x.length (fun k => s.mem (p + 4 * k)) i =
        Softmax32.softmax x.length (fun k => x.getD k 0) i := fun i hi => by
      unfold Softmax32.softmax
      beta_reduce
      rw [hv i hi]
      congr 1
      exact Finset.sum_congr rfl fun j hj => by rw [hv j (Finset.mem_range.mp hj)]
    refine ⟨s', g1, fun i hi => ?_⟩
    have := g2 i hi
    simp only [hsm i hi, hv i hi] at this
    rw [hget _ _ _ _ hi]
    exact this
  constructor
  · have ha : Apart 4 x.length 0 (4 * x.length) := by unfold Apart; omega
    obtain ⟨s', g1, -⟩ := main 0 (4 * x.length) (stateOf x []) (by omega) ha (memOf_fst x [])
    exact ⟨_, .inr ⟨hne, 0, 4 * x.length, stateOf x [], s', by omega, ha, memOf_fst x [], (g1 s').mpr rfl, rfl⟩⟩
  · rintro z (⟨h, -⟩ | ⟨-, p, q, s, t, hq, ha, hp, hr, rfl⟩)
    · exact absurd h hne
    · obtain ⟨s', g1, g2⟩ := main p q s hq ha hp
      obtain rfl := (g1 t).mp hr
      exact ⟨by simp [elems], g2⟩

/-! ### The transposed product -/

theorem slack_le {r B : ℝ} (h : |r| ≤ B) (ht : (2 : ℝ) ^ (-126 : Int) ≤ B) : slack r ≤ B / 2 ^ 24 := by
  unfold slack
  exact div_le_div_of_nonneg_right (max_le h ht) (by positivity)

/-- One step of the sum. -/
theorem axpy_step {u w o : F32.W} (hu : F32.Finite u) (hw : F32.Finite w) (ho : F32.Finite o) {B : ℝ} (hB : B ≤ 2 ^ 121)
    (hBt : (2 : ℝ) ^ (-126 : Int) ≤ B) (h : |val o| + |val u * val w| ≤ 2 * B) :
    F32.Finite (addIeee (mulIeee u w) o) ∧ |val (addIeee (mulIeee u w) o) - (val o + val w * val u)| ≤ 5 * B / 2 ^ 24 := by
  have ho0 := abs_nonneg (val o)
  have hp0 := abs_nonneg (val u * val w)
  have hB0 : 0 < B := lt_of_lt_of_le (by positivity) hBt
  have hmf : (2 : ℝ) ^ 125 ≤ maxFin := by unfold maxFin; norm_num
  have h125 : 3 * B ≤ (2 : ℝ) ^ 125 := by
    refine (mul_le_mul_of_nonneg_left hB (by norm_num)).trans (by norm_num)
  have f1 : F32.Finite (mulIeee u w) := mul_fin hu hw (by linarith)
  have e1 := mul_near_fin f1
  have s1 : slack (val u * val w) ≤ 2 * B / 2 ^ 24 := slack_le (by linarith) (by linarith)
  have hm : |val (mulIeee u w)| ≤ |val u * val w| + 2 * B / 2 ^ 24 := by
    have := abs_sub_abs_le_abs_sub (val (mulIeee u w)) (val u * val w)
    linarith
  have hs : |val (mulIeee u w) + val o| ≤ 3 * B := by
    have h1 := abs_add_le (val (mulIeee u w)) (val o)
    have h2 : 2 * B / 2 ^ 24 ≤ B := by rw [div_le_iff₀ (by positivity)]; nlinarith
    linarith
  have f2 : F32.Finite (addIeee (mulIeee u w) o) := add_fin f1 ho (by linarith)
  have e2 := add_near_fin f2
  have s2 : slack (val (mulIeee u w) + val o) ≤ 3 * B / 2 ^ 24 := slack_le hs (by linarith)
  refine ⟨f2, ?_⟩
  have e3 : 5 * B / (2 : ℝ) ^ 24 = 2 * B / 2 ^ 24 + 3 * B / 2 ^ 24 := by ring
  rw [e3]
  rw [mul_comm (val w)]
  obtain ⟨p1, p2⟩ := abs_le.mp (e1.trans s1)
  obtain ⟨p3, p4⟩ := abs_le.mp (e2.trans s2)
  exact abs_le.mpr ⟨by linarith, by linarith⟩

theorem loop_ok {rows cols : Nat} {data : List F32.W} (hd : data.length = rows * cols) (hdv : ∀ v ∈ data, F32.Finite v) {B B' : ℝ}
    (hB0 : 0 ≤ B) (hB' : B' ≤ 2 ^ 121) (hBt : (2 : ℝ) ^ (-126 : Int) ≤ B') (hv : ∀ v ∈ data, |val v| ≤ B) :
    ∀ (ws : List F32.W) (i : Nat) (out : List F32.W), i + ws.length = rows → (∀ w ∈ ws, F32.Finite w) → out.length = cols →
      (∀ l < cols, F32.Finite (out.getD l 0) ∧
        |val (out.getD l 0)| + (ws.map fun w => |val w|).sum * B + ws.length * (5 * B' / 2 ^ 24) ≤ 2 * B') →
      (∃ z, MulTLoop cols data (i * cols) ws out z) ∧ ∀ z, MulTLoop cols data (i * cols) ws out z → z.length = cols ∧
        ∀ l < cols, F32.Finite (z.getD l 0) ∧
          |val (z.getD l 0) - (val (out.getD l 0) + ∑ j ∈ Finset.range ws.length, val (ws.getD j 0) * at2 cols data (i + j) l)| ≤
            ws.length * (5 * B' / 2 ^ 24) := by
  intro ws
  induction ws with
  | nil =>
    intro i out _ _ hl ho
    refine ⟨⟨out, rfl⟩, fun z hz => ?_⟩
    obtain rfl : z = out := hz
    exact ⟨hl, fun l hlc => ⟨(ho l hlc).1, by simp⟩⟩
  | cons w ws ih =>
    intro i out hi hw hl ho
    have hi' : i < rows := by simp at hi; omega
    have hstart : i * cols + cols ≤ data.length := by
      rw [hd, show i * cols + cols = (i + 1) * cols by ring]; exact Nat.mul_le_mul_right _ hi'
    have hrl : ((data.drop (i * cols)).take cols).length = cols := by simp; omega
    have hrow : ∀ l < cols, ((data.drop (i * cols)).take cols).getD l 0 = data.getD (i * cols + l) 0 := fun l hlc => row_get hd hi' hlc
    have hmem : ∀ l < cols, data.getD (i * cols + l) 0 ∈ data := fun l hlc => by
      rw [List.getD_eq_getElem _ _ (by omega)]; exact List.getElem_mem _
    set o := List.zipWith (fun u v => addIeee (mulIeee u w) v) ((data.drop (i * cols)).take cols) out with hod
    have hol : o.length = cols := by rw [hod, List.length_zipWith, hrl, hl]; simp
    have hB'0 : 0 < B' := lt_of_lt_of_le (by positivity) hBt
    have hδ : 0 ≤ 5 * B' / 2 ^ 24 := by positivity
    have hwsum : 0 ≤ (ws.map fun w => |val w|).sum := List.sum_nonneg fun v hv => by
      obtain ⟨u, -, rfl⟩ := List.mem_map.mp hv; exact abs_nonneg _
    have hov : ∀ l < cols, F32.Finite (o.getD l 0) ∧
        |val (o.getD l 0) - (val (out.getD l 0) + val w * at2 cols data i l)| ≤ 5 * B' / 2 ^ 24 ∧
        |val w * at2 cols data i l| ≤ |val w| * B := by
      intro l hlc
      obtain ⟨h1, h2⟩ := ho l hlc
      rw [hod, getD_zip (n := cols) (f := fun u v => addIeee (mulIeee u w) v) hrl hl hlc, hrow l hlc]
      have hpB : |val w * at2 cols data i l| ≤ |val w| * B := by
        rw [abs_mul]; exact mul_le_mul_of_nonneg_left (hv _ (hmem l hlc)) (abs_nonneg _)
      simp only [List.map_cons, List.sum_cons, List.length_cons] at h2
      rw [Nat.cast_succ] at h2
      have i1 : 0 ≤ (ws.map fun w => |val w|).sum * B := mul_nonneg hwsum hB0
      have i2 : 0 ≤ (ws.length : ℝ) * (5 * B' / 2 ^ 24) := mul_nonneg (Nat.cast_nonneg _) hδ
      have hb : |val (out.getD l 0)| + |val (data.getD (i * cols + l) 0) * val w| ≤ 2 * B' := by
        rw [mul_comm (val (data.getD (i * cols + l) 0))]
        have : |val w * val (data.getD (i * cols + l) 0)| ≤ |val w| * B := hpB
        nlinarith
      obtain ⟨g1, g2⟩ := axpy_step (hdv _ (hmem l hlc)) (hw w (by simp)) h1 hB' hBt hb
      exact ⟨g1, g2, hpB⟩
    have hnext := ih (i + 1) o (by simp at hi; omega) (fun v hv => hw v (by simp [hv])) hol (by
      intro l hlc
      obtain ⟨h1, h2⟩ := ho l hlc
      obtain ⟨g1, g2, g3⟩ := hov l hlc
      refine ⟨g1, ?_⟩
      simp only [List.map_cons, List.sum_cons, List.length_cons] at h2
      rw [Nat.cast_succ] at h2
      have t1 := abs_sub_abs_le_abs_sub (val (o.getD l 0)) (val (out.getD l 0) + val w * at2 cols data i l)
      have t2 := abs_add_le (val (out.getD l 0)) (val w * at2 cols data i l)
      nlinarith)
    rw [show (i + 1) * cols = i * cols + cols by ring] at hnext
    obtain ⟨⟨z, hz⟩, hall⟩ := hnext
    refine ⟨⟨z, hstart, o, (axpy_iff (hrl.trans hl.symm)).mpr rfl, hz⟩, ?_⟩
    rintro z ⟨-, o', ho', hz'⟩
    obtain rfl : o' = o := (axpy_iff (hrl.trans hl.symm)).mp ho'
    obtain ⟨q1, q2⟩ := hall z hz'
    refine ⟨q1, fun l hlc => ⟨(q2 l hlc).1, ?_⟩⟩
    have q3 := (q2 l hlc).2
    obtain ⟨-, g2, -⟩ := hov l hlc
    have hsum : ∑ j ∈ Finset.range (w :: ws).length, val ((w :: ws).getD j 0) * at2 cols data (i + j) l =
        val w * at2 cols data i l + ∑ j ∈ Finset.range ws.length, val (ws.getD j 0) * at2 cols data (i + 1 + j) l := by
      rw [List.length_cons, Finset.sum_range_succ', add_comm]
      congr 1
      refine Finset.sum_congr rfl fun j _ => ?_
      rw [List.getD_cons_succ, show i + (j + 1) = i + 1 + j by omega]
    rw [hsum, List.length_cons, Nat.cast_succ]
    obtain ⟨a1, a2⟩ := abs_le.mp q3
    obtain ⟨a3, a4⟩ := abs_le.mp g2
    exact abs_le.mpr ⟨by linarith, by linarith⟩

end Verif.Att32
