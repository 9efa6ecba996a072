import Verif.Lemmas.Rec32

set_option autoImplicit false
set_option linter.unusedSimpArgs false

/-!
# C90: recurrent networks of float32, for sequences of any length

Whatever the length of the sequence, no step overflows: outputs stay from -1 to 1, and the cell of an LSTM up to `2^25`, because
of the way the additions are rounded.  And after every input the state is as close to that of the network of real numbers as the
bounds of `Spec/Rec32.lean` say.
-/

namespace Verif.Rec32
open Verif.F32 Verif.Asm Verif.Spec Verif.Spec.Kernels Verif.Net32 Verif.Spec.Net32 Verif.Spec.Rec32 Verif.Softmax32

variable {M : Machine} {n m : Nat} {X : ℝ}

/-! ### One step -/

/-- **C90: one step of a simple recurrent network.** -/
theorem srn_step (hM : GoodLib M.lib) {g : Gate} (hg : Fits n m g X) {x : List F32.W} (hx : Within m x X)
    {prev : Option (List F32.W)} (hp : ∀ y, prev = some y → Within n y 1) :
    (∃ y, srnNext M n m g prev x y) ∧ ∀ y, srnNext M n m g prev x y → Within n y 1 ∧
      ∀ i < n, |vals y i - srn n m g (vals x) (pv prev) i| ≤ tanhErr n m g X := by
  obtain ⟨h1, h2⟩ := tanh_ok hM hg hx hp
  refine ⟨h1, fun y hy => ?_⟩
  obtain ⟨g1, g2⟩ := h2 y hy
  exact ⟨⟨g1, fun i hi => ⟨(g2 i hi).1, abs_le.mpr ⟨(g2 i hi).2.1, (g2 i hi).2.2.1⟩⟩⟩, fun i hi => (g2 i hi).2.2.2⟩

theorem pre_move {g : Gate} {x y y' : Nat → ℝ} {d : ℝ} (hd : 0 ≤ d) (h : ∀ k < n, |y k - y' k| ≤ d) {i : Nat} (hi : i < n) :
    |pre n m g x y i - pre n m g x y' i| ≤ Net32.norm n n g.wRec * d := by
  have hΛ : ∑ k ∈ Finset.range n, |at2 n g.wRec i k| ≤ Net32.norm n n g.wRec :=
    le_largest (f := fun i => ∑ k ∈ Finset.range n, |at2 n g.wRec i k|) hi
  have h1 := sum_dev hΛ hd h
  have h2 : ∑ k ∈ Finset.range n, at2 n g.wRec i k * (y k - y' k) =
      ∑ k ∈ Finset.range n, at2 n g.wRec i k * y k - ∑ k ∈ Finset.range n, at2 n g.wRec i k * y' k := by
    rw [← Finset.sum_sub_distrib]; exact Finset.sum_congr rfl fun k _ => by ring
  rw [h2] at h1
  have h3 : pre n m g x y i - pre n m g x y' i =
      ∑ k ∈ Finset.range n, at2 n g.wRec i k * y k - ∑ k ∈ Finset.range n, at2 n g.wRec i k * y' k := by unfold pre; ring
  rw [h3]; exact h1

theorem exact_one : F32.Exact 1 := by simpa [one_val] using one_exact

theorem one_max : (1 : ℝ) ≤ maxFin := by unfold maxFin; norm_num

theorem abs_unit {v : ℝ} (h0 : 0 ≤ v) (h1 : v ≤ 1) : |v| ≤ 1 := abs_le.mpr ⟨by linarith, h1⟩

theorem mul_unit_le {a b : ℝ} (ha : |a| ≤ 1) : |a * b| ≤ |b| := by
  rw [abs_mul]
  calc _ ≤ 1 * |b| := mul_le_mul_of_nonneg_right ha (abs_nonneg _)
    _ = |b| := one_mul _

theorem exact_abs {v : F32.W} (h : F32.Finite v) : F32.Exact |val v| := by
  have := (finite_exact h).1
  rcases abs_choice (val v) with h | h <;> rw [h]
  · exact this
  · exact exact_neg this

/-- The product with a factor from 0 to 1. -/
theorem mul_share {a b : F32.W} (ha : F32.Finite a) (hb : F32.Finite b) (h0 : 0 ≤ val a) (h1 : |val b| ≤ 1) :
    F32.Finite (mulIeee a b) ∧ |val (mulIeee a b)| ≤ val a := by
  refine mul_unit ha hb (finite_exact ha).1 ?_ ((le_abs_self _).trans (finite_exact ha).2)
  rw [mul_comm]
  exact (mul_unit_le h1).trans (abs_of_nonneg h0).le

/-- **C90: one step of a GRU.** -/
theorem gru_step (hM : GoodLib M.lib) {g : Gru} (h1 : Fits n m g.res X) (h2 : Fits n m g.part X) (h3 : Fits n m g.cand X)
    {x : List F32.W} (hx : Within m x X) {prev : Option (List F32.W)} (hp : ∀ y, prev = some y → Within n y 1) :
    (∃ y, gruNext M n m g prev x y) ∧ ∀ y, gruNext M n m g prev x y → Within n y 1 ∧
      ∀ i < n, |vals y i - gru n m g (vals x) (pv prev) i| ≤ gruErr n m g X := by
  obtain ⟨⟨r, hr⟩, rall⟩ := sig_ok hM h1 hx hp
  obtain ⟨⟨p, hp'⟩, pall⟩ := sig_ok hM h2 hx hp
  have hEr : 0 ≤ sigErr n m g.res X := by unfold sigErr; have := preErr_nonneg (n := n) (m := m) (g := g.res) h1.x0; positivity
  have hEp : 0 ≤ sigErr n m g.part X := by unfold sigErr; have := preErr_nonneg (n := n) (m := m) (g := g.part) h1.x0; positivity
  have hN : 0 ≤ Net32.norm n n g.cand.wRec := largest_nonneg _ _
  cases prev with
  | none =>
    obtain ⟨⟨c, hc⟩, call⟩ := tanh_ok hM h3 hx (prev := none) (fun _ h => by cases h)
    have hl : p.length = c.length := (pall p hp').1.trans (call c hc).1.symm
    refine ⟨⟨_, r, p, c, _, hr, hp', hc, ⟨hl, rfl⟩, rfl⟩, ?_⟩
    rintro y ⟨r', p', c', h, -, gp, gc, ⟨-, rfl⟩, rfl⟩
    obtain ⟨pl, pv'⟩ := pall p' gp
    obtain ⟨cl, cv⟩ := call c' gc
    have key : ∀ i < n, F32.Finite ((List.zipWith mulIeee p' c').getD i 0) ∧ |val ((List.zipWith mulIeee p' c').getD i 0)| ≤ 1 ∧
        |val ((List.zipWith mulIeee p' c').getD i 0) - gru n m g (vals x) (pv none) i| ≤ gruErr n m g X := by
      intro i hi
      obtain ⟨p1, p2, p3, p4⟩ := pv' i hi
      obtain ⟨c1, c2, c3, c4⟩ := cv i hi
      rw [getD_zip pl cl hi]
      obtain ⟨f1, f2⟩ := mul_share p1 c1 p2 (abs_le.mpr ⟨c2, c3⟩)
      refine ⟨f1, f2.trans p3, ?_⟩
      have e := mul_err p1 c1 (abs_unit p2 p3) (abs_le.mpr ⟨c2, c3⟩) le_rfl one_max (tanh_unit _) p4 c4
      have hz : ∀ k, pv none k = 0 := fun k => by unfold pv; simp
      have hgru : gru n m g (vals x) (pv none) i = Sigmoid32.sigmoid (pre n m g.part (vals x) (pv none) i) *
          Real.tanh (pre n m g.cand (vals x) (pv none) i) := by
        unfold gru
        have : (fun k => pv none k * Sigmoid32.sigmoid (pre n m g.res (vals x) (pv none) k)) = pv none := by
          funext k; rw [hz k, zero_mul]
        simp only [this, hz i, mul_zero, add_zero]
      rw [hgru]
      refine e.trans ?_
      unfold gruErr
      have := mul_nonneg hN (add_nonneg hEr (show (0 : ℝ) ≤ 1 / 2 ^ 24 by norm_num))
      have h24 : (1 : ℝ) / 2 ^ 24 ≤ 4 / 2 ^ 24 := by norm_num
      linarith
    exact ⟨⟨by simp [pl, cl], fun i hi => ⟨(key i hi).1, (key i hi).2.1⟩⟩, fun i hi => (key i hi).2.2⟩
  | some yp =>
    have hy := hp yp rfl
    -- the reset output
    have yrok : ∀ r, SigGate M n m g.res x (some yp) r → Within n (List.zipWith mulIeee yp r) 1 ∧ ∀ i < n,
        |vals (List.zipWith mulIeee yp r) i - vals yp i * Sigmoid32.sigmoid (pre n m g.res (vals x) (pv (some yp)) i)| ≤
          sigErr n m g.res X + 1 / 2 ^ 24 := by
      intro r hr
      obtain ⟨rl, rv⟩ := rall r hr
      have key : ∀ i < n, F32.Finite ((List.zipWith mulIeee yp r).getD i 0) ∧ |val ((List.zipWith mulIeee yp r).getD i 0)| ≤ 1 ∧
          |val ((List.zipWith mulIeee yp r).getD i 0) - vals yp i * Sigmoid32.sigmoid (pre n m g.res (vals x) (pv (some yp)) i)| ≤
          sigErr n m g.res X + 1 / 2 ^ 24 := by
        intro i hi
        obtain ⟨r1, r2, r3, r4⟩ := rv i hi
        obtain ⟨y1, y2⟩ := hy.2 i hi
        rw [getD_zip hy.1 rl hi]
        obtain ⟨f1, f2⟩ := mul_unit y1 r1 exact_one ((mul_unit_le y2).trans (abs_unit r2 r3)) one_max
        refine ⟨f1, f2, ?_⟩
        have e := mul_err y1 r1 y2 (abs_unit r2 r3) le_rfl one_max (abs_unit (sigmoid_unit _).1 (sigmoid_unit _).2)
          (A := val (yp.getD i 0)) (Ea := 0) (by simp) r4
        refine e.trans (le_of_eq (by ring))
      exact ⟨⟨by simp [hy.1, rl], fun i hi => ⟨(key i hi).1, (key i hi).2.1⟩⟩, fun i hi => (key i hi).2.2⟩
    have cok : ∀ r, SigGate M n m g.res x (some yp) r → (∃ c, TanhGate M n m g.cand x (some (List.zipWith mulIeee yp r)) c) ∧
        ∀ c, TanhGate M n m g.cand x (some (List.zipWith mulIeee yp r)) c → Gated n c (-1)
          (fun i => Real.tanh (pre n m g.cand (vals x)
            (fun k => vals yp k * Sigmoid32.sigmoid (pre n m g.res (vals x) (pv (some yp)) k)) i))
          (tanhErr n m g.cand X + Net32.norm n n g.cand.wRec * (sigErr n m g.res X + 1 / 2 ^ 24)) := by
      intro r hr
      obtain ⟨w1, w2⟩ := yrok r hr
      obtain ⟨t1, t2⟩ := tanh_ok hM h3 hx (prev := some (List.zipWith mulIeee yp r)) (fun y h => by cases h; exact w1)
      refine ⟨t1, fun c hc => ?_⟩
      obtain ⟨c0, cv⟩ := t2 c hc
      refine ⟨c0, fun i hi => ?_⟩
      obtain ⟨c1, c2, c3, c4⟩ := cv i hi
      refine ⟨c1, c2, c3, ?_⟩
      have hpv : pv (some (List.zipWith mulIeee yp r)) = vals (List.zipWith mulIeee yp r) := by funext k; unfold pv; simp
      rw [hpv] at c4
      have e1 := pre_move (n := n) (m := m) (g := g.cand) (x := vals x) (add_nonneg hEr (show (0 : ℝ) ≤ 1 / 2 ^ 24 by norm_num)) w2 hi
      have e2 := tanh_lip (pre n m g.cand (vals x) (vals (List.zipWith mulIeee yp r)) i)
        (pre n m g.cand (vals x) (fun k => vals yp k * Sigmoid32.sigmoid (pre n m g.res (vals x) (pv (some yp)) k)) i)
      rw [one_mul] at e2
      have e3 := abs_sub_le (val (c.getD i 0)) (Real.tanh (pre n m g.cand (vals x) (vals (List.zipWith mulIeee yp r)) i))
        (Real.tanh (pre n m g.cand (vals x) (fun k => vals yp k * Sigmoid32.sigmoid (pre n m g.res (vals x) (pv (some yp)) k)) i))
      linarith
    obtain ⟨⟨c, hc⟩, call⟩ := cok r hr
    have pl := (pall p hp').1
    have hl : p.length = c.length := pl.trans (call c hc).1.symm
    constructor
    · refine ⟨_, r, p, c, _, hr, hp', ⟨_, ⟨hy.1.trans (rall r hr).1.symm, rfl⟩, hc⟩, ⟨hl, rfl⟩, _, _,
        (revSub_iff M.cpu p _).mpr rfl, ⟨by simp [pl, hy.1], rfl⟩, (addNew_iff M.cpu _ _ _).mpr ⟨?_, rfl⟩⟩
      simp [pl, hy.1, (call c hc).1]
    · rintro y ⟨r', p', c', h, gr, gp, ⟨yr, ⟨-, rfl⟩, gc⟩, ⟨-, rfl⟩, q, k, gq, ⟨-, rfl⟩, gy⟩
      obtain rfl := (revSub_iff M.cpu p' q).mp gq
      obtain ⟨-, rfl⟩ := (addNew_iff M.cpu _ _ y).mp gy
      obtain ⟨pl, pv'⟩ := pall p' gp
      obtain ⟨cl, cv⟩ := (cok r' gr).2 c' gc
      have key : ∀ i < n, F32.Finite ((List.zipWith addIeee (List.zipWith mulIeee p' c') (List.zipWith mulIeee
            (p'.map fun v => addIeee (mulIeee v 0xbf800000) 0x3f800000) yp)).getD i 0) ∧
          |val ((List.zipWith addIeee (List.zipWith mulIeee p' c') (List.zipWith mulIeee
            (p'.map fun v => addIeee (mulIeee v 0xbf800000) 0x3f800000) yp)).getD i 0)| ≤ 1 ∧
          |val ((List.zipWith addIeee (List.zipWith mulIeee p' c') (List.zipWith mulIeee
            (p'.map fun v => addIeee (mulIeee v 0xbf800000) 0x3f800000) yp)).getD i 0) - gru n m g (vals x) (pv (some yp)) i| ≤
            gruErr n m g X := by
        intro i hi
        obtain ⟨p1, p2, p3, p4⟩ := pv' i hi
        obtain ⟨c1, c2, c3, c4⟩ := cv i hi
        obtain ⟨y1, y2⟩ := hy.2 i hi
        rw [getD_zip (n := n) (by simp [pl, cl]) (by simp [pl, hy.1]) hi, getD_zip pl cl hi,
          getD_zip (n := n) (by simp [pl]) hy.1 hi, getD_map (by omega)]
        obtain ⟨n1, n2⟩ := Sigmoid32.neg_mul p1
        obtain ⟨q1, q2, q3, q4⟩ := rev_sub n1 n2 p2 p3
        change F32.Finite (addIeee _ (mulIeee (addIeee (mulIeee (p'.getD i 0) 0xbf800000) one) _)) ∧ |val (addIeee _ (mulIeee (addIeee (mulIeee (p'.getD i 0) 0xbf800000) one) _))| ≤ 1 ∧
          |val (addIeee _ (mulIeee (addIeee (mulIeee (p'.getD i 0) 0xbf800000) one) _)) - _| ≤ _
        generalize addIeee (mulIeee (p'.getD i 0) 0xbf800000) one = q at *
        obtain ⟨f1, f2⟩ := mul_share p1 c1 p2 (abs_le.mpr ⟨c2, c3⟩)
        obtain ⟨k1, k2⟩ := mul_share q1 y1 q2 y2
        obtain ⟨o1, o2⟩ := avg_sat f1 k1 f2 k2 q4
        refine ⟨o1, o2, ?_⟩
        have e1 := mul_err p1 c1 (abs_unit p2 p3) (abs_le.mpr ⟨c2, c3⟩) le_rfl one_max (tanh_unit _) p4 c4
        have e2 := mul_err q1 y1 (abs_unit q2 q3) y2 le_rfl one_max y2 (A := 1 - Sigmoid32.sigmoid (pre n m g.part (vals x) (pv (some yp)) i))
          (Ea := sigErr n m g.part X + 1 / 2 ^ 25) (B := val (yp.getD i 0)) (Eb := 0) (by
            obtain ⟨a1, a2⟩ := abs_le.mp q4
            obtain ⟨b1, b2⟩ := abs_le.mp p4
            exact abs_le.mpr ⟨by linarith, by linarith⟩) (by simp)
        have hsum : |val (mulIeee (p'.getD i 0) (c'.getD i 0)) + val (mulIeee q (yp.getD i 0))| < (2 : ℝ) ^ (1 : Int) := by
          refine lt_of_le_of_lt (abs_add_le _ _) ?_
          have := (abs_le.mp q4).2
          rw [zpow_one]
          linarith [show (1 : ℝ) / 2 ^ 25 < 1 by norm_num]
        have e3 := add_half o1 (by norm_num) hsum
        have hgru : gru n m g (vals x) (pv (some yp)) i = Sigmoid32.sigmoid (pre n m g.part (vals x) (pv (some yp)) i) *
            Real.tanh (pre n m g.cand (vals x) (fun k => vals yp k * Sigmoid32.sigmoid (pre n m g.res (vals x) (pv (some yp)) k)) i) +
            (1 - Sigmoid32.sigmoid (pre n m g.part (vals x) (pv (some yp)) i)) * val (yp.getD i 0) := by
          have hpv : ∀ k, pv (some yp) k = vals yp k := fun k => by unfold pv; simp
          unfold gru
          simp only [hpv]
          rfl
        rw [hgru]
        unfold gruErr
        rw [show ((2 : ℝ) ^ ((1 : Int) - 25)) = 1 / 2 ^ 24 by norm_num] at e3
        obtain ⟨a1, a2⟩ := abs_le.mp e1
        obtain ⟨a3, a4⟩ := abs_le.mp e2
        obtain ⟨a5, a6⟩ := abs_le.mp e3
        have h25 : (1 : ℝ) / 2 ^ 25 = 1 / 2 ^ 24 / 2 := by norm_num
        have h4 : (4 : ℝ) / 2 ^ 24 = 4 * (1 / 2 ^ 24) := by norm_num
        rw [h25] at a3 a4
        rw [h4]
        have hu : (0 : ℝ) < 1 / 2 ^ 24 := by norm_num
        generalize (1 : ℝ) / 2 ^ 24 = u at *
        generalize Net32.norm n n g.cand.wRec * (sigErr n m g.res X + u) = B at *
        exact abs_le.mpr ⟨by linarith, by linarith⟩
      exact ⟨⟨by simp [pl, cl, hy.1], fun i hi => ⟨(key i hi).1, (key i hi).2.1⟩⟩, fun i hi => (key i hi).2.2⟩

/-- The previous cell as numbers. -/
noncomputable def pc (prev : Option Cell) : Nat → ℝ := fun i => (prev.map fun s => vals s.cell i).getD 0

theorem sigErr_nonneg {g : Gate} (hX : 0 ≤ X) : 0 ≤ sigErr n m g X := by
  unfold sigErr; have := preErr_nonneg (n := n) (m := m) (g := g) hX; positivity

theorem tanhErr_nonneg {g : Gate} (hX : 0 ≤ X) : 0 ≤ tanhErr n m g X := by
  unfold tanhErr; have := preErr_nonneg (n := n) (m := m) (g := g) hX; positivity

/-- The output gate of an LSTM. -/
theorem out_ok (hM : GoodLib M.lib) {o c : List F32.W} {u v : Nat → ℝ} {Eo Ec : ℝ} (ho : Gated n o 0 u Eo)
    (hc : Within n c (2 ^ 25)) (hcv : ∀ i < n, |vals c i - v i| ≤ Ec) :
    Within n (List.zipWith mulIeee o (c.map M.lib.tanh)) 1 ∧
      ∀ i < n, |vals (List.zipWith mulIeee o (c.map M.lib.tanh)) i - u i * Real.tanh (v i)| ≤ Ec + Eo + 3 / 2 ^ 24 := by
  have key : ∀ i < n, F32.Finite ((List.zipWith mulIeee o (c.map M.lib.tanh)).getD i 0) ∧
      |val ((List.zipWith mulIeee o (c.map M.lib.tanh)).getD i 0)| ≤ 1 ∧
      |val ((List.zipWith mulIeee o (c.map M.lib.tanh)).getD i 0) - u i * Real.tanh (v i)| ≤ Ec + Eo + 3 / 2 ^ 24 := by
    intro i hi
    obtain ⟨o1, o2, o3, o4⟩ := ho.2 i hi
    obtain ⟨c1, c2⟩ := hc.2 i hi
    rw [getD_zip (n := n) ho.1 (by simp [hc.1]) hi, getD_map (by rw [hc.1]; exact hi)]
    obtain ⟨t1, t2, t3⟩ := hM.tanh _ c1
    obtain ⟨f1, f2⟩ := mul_share o1 t1 o2 t2
    refine ⟨f1, f2.trans o3, ?_⟩
    have e1 := tanh_lip (val (c.getD i 0)) (v i)
    have e2 : |val (M.lib.tanh (c.getD i 0)) - Real.tanh (v i)| ≤ 1 / 2 ^ 23 + Ec := by
      have h1 := abs_sub_le (val (M.lib.tanh (c.getD i 0))) (Real.tanh (val (c.getD i 0))) (Real.tanh (v i))
      have h2 : |val (c.getD i 0) - v i| ≤ Ec := hcv i hi
      linarith
    have e := mul_err o1 t1 (abs_unit o2 o3) t2 le_rfl one_max (tanh_unit (v i)) o4 e2
    refine e.trans (le_of_eq ?_)
    ring
  exact ⟨⟨by simp [ho.1, hc.1], fun i hi => ⟨(key i hi).1, (key i hi).2.1⟩⟩, fun i hi => (key i hi).2.2⟩

/-- **C90: one step of an LSTM.** The cell does not leave its range, however large it has become. -/
theorem lstm_step (hM : GoodLib M.lib) {g : Lstm} (h1 : Fits n m g.inp X) (h2 : Fits n m g.out X) (h3 : Fits n m g.forget X)
    (h4 : Fits n m g.cand X) {x : List F32.W} (hx : Within m x X) {prev : Option Cell}
    (hp : ∀ s, prev = some s → Within n s.cell (2 ^ 25) ∧ Within n s.y 1) {C : ℝ} (hC : 1 ≤ C) (hc : ∀ i < n, |pc prev i| ≤ C) :
    (∃ s, lstmNext M n m g prev x s) ∧ ∀ s, lstmNext M n m g prev x s → (Within n s.cell (2 ^ 25) ∧ Within n s.y 1) ∧
      ∀ i < n, |vals s.cell i - lstmCell n m g (vals x) (pc prev) (pv (prev.map Cell.y)) i| ≤ cellErr n m g X C ∧
        |vals s.y i - lstmOut n m g (vals x) (pc prev) (pv (prev.map Cell.y)) i| ≤ outErr n m g X C := by
  have hpy : ∀ y, prev.map Cell.y = some y → Within n y 1 := fun y hy => by
    obtain ⟨s, hs, rfl⟩ := Option.map_eq_some_iff.mp hy
    exact (hp s hs).2
  obtain ⟨⟨i₀, hi₀⟩, iall⟩ := sig_ok hM h1 hx hpy
  obtain ⟨⟨o₀, ho₀⟩, oall⟩ := sig_ok hM h2 hx hpy
  obtain ⟨⟨f₀, hf₀⟩, fall⟩ := sig_ok hM h3 hx hpy
  obtain ⟨⟨c₀, hc₀⟩, call⟩ := tanh_ok hM h4 hx hpy
  have hEf : 0 ≤ sigErr n m g.forget X := sigErr_nonneg h1.x0
  -- the share of the candidate
  have aok : ∀ i c, SigGate M n m g.inp x (prev.map Cell.y) i → TanhGate M n m g.cand x (prev.map Cell.y) c →
      (List.zipWith mulIeee i c).length = n ∧ ∀ k < n, F32.Finite ((List.zipWith mulIeee i c).getD k 0) ∧
        |val ((List.zipWith mulIeee i c).getD k 0)| ≤ 1 ∧
        |val ((List.zipWith mulIeee i c).getD k 0) - Sigmoid32.sigmoid (pre n m g.inp (vals x) (pv (prev.map Cell.y)) k) *
          Real.tanh (pre n m g.cand (vals x) (pv (prev.map Cell.y)) k)| ≤ sigErr n m g.inp X + tanhErr n m g.cand X + 1 / 2 ^ 24 := by
    intro i c hi hc
    obtain ⟨il, iv⟩ := iall i hi
    obtain ⟨cl, cv⟩ := call c hc
    refine ⟨by simp [il, cl], fun k hk => ?_⟩
    obtain ⟨i1, i2, i3, i4⟩ := iv k hk
    obtain ⟨c1, c2, c3, c4⟩ := cv k hk
    rw [getD_zip il cl hk]
    obtain ⟨f1, f2⟩ := mul_share i1 c1 i2 (abs_le.mpr ⟨c2, c3⟩)
    refine ⟨f1, f2.trans i3, ?_⟩
    have e := mul_err i1 c1 (abs_unit i2 i3) (abs_le.mpr ⟨c2, c3⟩) le_rfl one_max (tanh_unit _) i4 c4
    rw [one_mul] at e
    exact e
  cases prev with
  | none =>
    obtain ⟨al, -⟩ := aok i₀ c₀ hi₀ hc₀
    have hlic : i₀.length = c₀.length := (iall i₀ hi₀).1.trans (call c₀ hc₀).1.symm
    have hlo : o₀.length = ((List.zipWith mulIeee i₀ c₀).map M.lib.tanh).length := by
      rw [List.length_map, al]; exact (oall o₀ ho₀).1
    refine ⟨⟨⟨List.zipWith mulIeee i₀ c₀, List.zipWith mulIeee o₀ ((List.zipWith mulIeee i₀ c₀).map M.lib.tanh)⟩, i₀, o₀, f₀, c₀, _, hi₀, ho₀, hf₀, hc₀, ⟨hlic, rfl⟩, rfl, ⟨hlo, rfl⟩⟩, ?_⟩
    rintro ⟨cell, y⟩ ⟨i, o, f, c, a, gi, go, gf, gc, ⟨-, rfl⟩, hcell, ⟨-, hy⟩⟩
    simp only at hcell hy
    subst hcell
    subst hy
    obtain ⟨al, av⟩ := aok i c gi gc
    have hcw : Within n (List.zipWith mulIeee i c) (2 ^ 25) :=
      ⟨al, fun k hk => ⟨(av k hk).1, (av k hk).2.1.trans (by norm_num)⟩⟩
    have hcv : ∀ k < n, |vals (List.zipWith mulIeee i c) k - lstmCell n m g (vals x) (pc none) (pv (Option.map Cell.y none)) k| ≤
        cellErr n m g X C := by
      intro k hk
      have h0 : pc none k = 0 := by unfold pc; simp
      unfold lstmCell
      rw [h0, mul_zero, add_zero]
      refine ((av k hk).2.2).trans ?_
      unfold cellErr
      have := mul_nonneg (zero_le_one.trans hC) hEf
      have h24 : (1 : ℝ) / 2 ^ 24 ≤ (2 * C + 3) / 2 ^ 24 := div_le_div_of_nonneg_right (by linarith) (by positivity)
      linarith
    obtain ⟨w1, w2⟩ := out_ok hM (oall o go) hcw hcv
    exact ⟨⟨hcw, w1⟩, fun k hk => ⟨hcv k hk, w2 k hk⟩⟩
  | some sp =>
    obtain ⟨hsc, hsy⟩ := hp sp rfl
    have hpc : ∀ k, pc (some sp) k = val (sp.cell.getD k 0) := fun k => by unfold pc; simp [vals]
    have cellok : ∀ i f c, SigGate M n m g.inp x ((some sp).map Cell.y) i → SigGate M n m g.forget x ((some sp).map Cell.y) f →
        TanhGate M n m g.cand x ((some sp).map Cell.y) c →
        Within n (List.zipWith addIeee (List.zipWith mulIeee i c) (List.zipWith mulIeee f sp.cell)) (2 ^ 25) ∧
        ∀ k < n, |vals (List.zipWith addIeee (List.zipWith mulIeee i c) (List.zipWith mulIeee f sp.cell)) k -
          lstmCell n m g (vals x) (pc (some sp)) (pv ((some sp).map Cell.y)) k| ≤ cellErr n m g X C := by
      intro i f c gi gf gc
      obtain ⟨al, av⟩ := aok i c gi gc
      obtain ⟨fl, fv⟩ := fall f gf
      have key : ∀ k < n, F32.Finite ((List.zipWith addIeee (List.zipWith mulIeee i c) (List.zipWith mulIeee f sp.cell)).getD k 0) ∧
          |val ((List.zipWith addIeee (List.zipWith mulIeee i c) (List.zipWith mulIeee f sp.cell)).getD k 0)| ≤ 2 ^ 25 ∧
          |val ((List.zipWith addIeee (List.zipWith mulIeee i c) (List.zipWith mulIeee f sp.cell)).getD k 0) -
            lstmCell n m g (vals x) (pc (some sp)) (pv ((some sp).map Cell.y)) k| ≤ cellErr n m g X C := by
        intro k hk
        obtain ⟨a1, a2, a3⟩ := av k hk
        obtain ⟨f1, f2, f3, f4⟩ := fv k hk
        obtain ⟨s1, s2⟩ := hsc.2 k hk
        have hsC : |val (sp.cell.getD k 0)| ≤ C := by rw [← hpc k]; exact hc k hk
        rw [getD_zip (n := n) al (by simp [fl, hsc.1]) hk, getD_zip (a := f) fl hsc.1 hk]
        obtain ⟨k1, k2⟩ := mul_unit f1 s1 (exact_abs s1) (mul_unit_le (abs_unit f2 f3)) (finite_exact s1).2
        obtain ⟨o1, o2⟩ := cell_sat a1 k1 a2 (k2.trans s2)
        refine ⟨o1, o2, ?_⟩
        have hK : 1 ≤ min C (2 ^ 25) := le_min hC (by norm_num)
        have e1 := mul_err f1 s1 (abs_unit f2 f3) (le_min hsC s2) hK ((min_le_right _ _).trans (by unfold maxFin; norm_num))
          (B := val (sp.cell.getD k 0)) (le_min hsC s2) f4 (Eb := 0) (by simp)
        have hKC : min C (2 ^ 25) ≤ C := min_le_left _ _
        have e1' : min C (2 ^ 25) * sigErr n m g.forget X + 0 + min C (2 ^ 25) / 2 ^ 24 ≤ C * sigErr n m g.forget X + C / 2 ^ 24 := by
          have i1 := mul_le_mul_of_nonneg_right hKC hEf
          have i2 : min C (2 ^ 25) / 2 ^ 24 ≤ C / 2 ^ 24 := div_le_div_of_nonneg_right hKC (by positivity)
          rw [add_zero]
          exact add_le_add i1 i2
        have e2 := add_near_fin o1
        have hs : slack (val ((List.zipWith mulIeee i c).getD k 0) + val (mulIeee (f.getD k 0) (sp.cell.getD k 0))) ≤ (1 + C) / 2 ^ 24 := by
          unfold slack
          refine div_le_div_of_nonneg_right (max_le ?_ ?_) (by positivity)
          · exact (abs_add_le _ _).trans (add_le_add a2 (k2.trans hsC))
          · have : (2 : ℝ) ^ (-126 : Int) ≤ 1 := by norm_num
            linarith
        unfold lstmCell cellErr
        rw [hpc k]
        have e3 : (2 * C + 3) / (2 : ℝ) ^ 24 = C / 2 ^ 24 + (1 + C) / 2 ^ 24 + 2 * (1 / 2 ^ 24) := by ring
        rw [e3]
        have e1'' := e1.trans e1'
        beta_reduce at e1''
        have h24 : (0 : ℝ) < 1 / 2 ^ 24 := by norm_num
        generalize (1 : ℝ) / 2 ^ 24 = u at *
        generalize C / (2 : ℝ) ^ 24 = cu at *
        generalize (1 + C) / (2 : ℝ) ^ 24 = cu' at *
        obtain ⟨p1, p2⟩ := abs_le.mp a3
        obtain ⟨p3, p4⟩ := abs_le.mp e1''
        obtain ⟨p5, p6⟩ := abs_le.mp e2
        exact abs_le.mpr ⟨by linarith, by linarith⟩
      exact ⟨⟨by rw [List.length_zipWith, al]; simp [fl, hsc.1], fun k hk => ⟨(key k hk).1, (key k hk).2.1⟩⟩, fun k hk => (key k hk).2.2⟩
    have hlen : ∀ i f c, SigGate M n m g.inp x ((some sp).map Cell.y) i → SigGate M n m g.forget x ((some sp).map Cell.y) f →
        TanhGate M n m g.cand x ((some sp).map Cell.y) c → i.length = c.length ∧ f.length = sp.cell.length ∧
        (List.zipWith mulIeee i c).length = (List.zipWith mulIeee f sp.cell).length := by
      intro i f c gi gf gc
      have l1 := (iall i gi).1
      have l2 := (call c gc).1
      have l3 := (fall f gf).1
      have l4 := hsc.1
      refine ⟨by omega, by omega, by simp [l1, l2, l3, l4]⟩
    constructor
    · obtain ⟨l1, l2, l3⟩ := hlen i₀ f₀ c₀ hi₀ hf₀ hc₀
      obtain ⟨w1, -⟩ := cellok i₀ f₀ c₀ hi₀ hf₀ hc₀
      refine ⟨⟨List.zipWith addIeee (List.zipWith mulIeee i₀ c₀) (List.zipWith mulIeee f₀ sp.cell), List.zipWith mulIeee o₀
          ((List.zipWith addIeee (List.zipWith mulIeee i₀ c₀) (List.zipWith mulIeee f₀ sp.cell)).map M.lib.tanh)⟩, i₀, o₀, f₀, c₀, _, hi₀, ho₀, hf₀, hc₀,
        ⟨l1, rfl⟩, ⟨_, ⟨l2, rfl⟩, (addNew_iff M.cpu _ _ _).mpr ⟨l3, rfl⟩⟩, ⟨?_, rfl⟩⟩
      rw [List.length_map, w1.1]; exact (oall o₀ ho₀).1
    · rintro ⟨cell, y⟩ ⟨i, o, f, c, a, gi, go, gf, gc, ⟨-, rfl⟩, ⟨k, ⟨-, rfl⟩, gadd⟩, ⟨-, hy⟩⟩
      simp only at gadd hy
      obtain ⟨-, rfl⟩ := (addNew_iff M.cpu _ _ cell).mp gadd
      subst hy
      obtain ⟨w1, w2⟩ := cellok i f c gi gf gc
      obtain ⟨v1, v2⟩ := out_ok hM (oall o go) w1 w2
      exact ⟨⟨w1, v1⟩, fun k hk => ⟨w2 k hk, v2 k hk⟩⟩

end Verif.Rec32
