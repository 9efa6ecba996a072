import Verif.Lemmas.Opt32
import Verif.Props.Adam32

set_option autoImplicit false
set_option linter.unusedSimpArgs false

/-!
# SGD on 32-bit words (C95)

For any number of steps nothing overflows, the velocity stays within a fixed distance of the exact one, and the distance of the parameter
from that of exact SGD grows by at most a fixed amount in each step.
-/

namespace Verif.Opt32
open Verif.F32 Verif.Asm Verif.Spec Verif.Spec.Kernels Verif.Spec.Opt32 Verif.Net32 Verif.Rec32 Verif.Att32 Verif.Adam32

theorem mul_in {x y : F32.W} (hx : F32.Finite x) (hy : F32.Finite y) {B : ℝ} (h : |val x * val y| ≤ B) (h1 : (2 : ℝ) ^ (-126 : Int) ≤ B)
    (h2 : B ≤ 2 ^ 127) : F32.Finite (mulIeee x y) ∧ |val (mulIeee x y) - val x * val y| ≤ B / 2 ^ 24 := by
  have hf := mul_fin hx hy (h.trans (big_fin h2))
  exact ⟨hf, (mul_near_fin hf).trans (slack_le h h1)⟩

theorem add_in {x y : F32.W} (hx : F32.Finite x) (hy : F32.Finite y) {B : ℝ} (h : |val x + val y| ≤ B) (h2 : B ≤ 2 ^ 127) :
    F32.Finite (addIeee x y) ∧ |val (addIeee x y) - (val x + val y)| ≤ B / 2 ^ 24 := by
  have hf := add_fin hx hy (h.trans (big_fin h2))
  exact ⟨hf, (Norm32.add_pure hf).trans (div_le_div_of_nonneg_right h (by norm_num))⟩

theorem mu_range {o : Mode} (h : SaneMode o) : 0 ≤ mu o ∧ mu o ≤ 1 - 1 / 2 ^ 12 := by
  cases o with
  | plain => exact ⟨le_refl _, by unfold mu; norm_num⟩
  | momentum m => exact ⟨h.2.1, h.2.2⟩
  | nesterov m m1 => exact ⟨h.2.1, h.2.2.1⟩

/-- Old velocity times momentum plus rate times gradient. -/
theorem blend {m alpha g v : F32.W} {B : ℝ} (fm : F32.Finite m) (m0 : 0 ≤ val m) (m1 : val m ≤ 1 - 1 / 2 ^ 12) (fa : F32.Finite alpha)
    (fg : F32.Finite g) (fv : F32.Finite v) (hB : (2 : ℝ) ^ (-126 : Int) ≤ B) (hB' : B ≤ 2 ^ 120) (hv : |val v| ≤ B)
    (hu : |val alpha * val g| ≤ (1 - val m) / 2 * B) :
    F32.Finite (addIeee (mulIeee v m) (mulIeee g alpha)) ∧ |val (addIeee (mulIeee v m) (mulIeee g alpha))| ≤ B ∧
      |val (addIeee (mulIeee v m) (mulIeee g alpha)) - (val m * val v + val alpha * val g)| ≤ 3 * B / 2 ^ 24 := by
  have B0 : 0 < B := lt_of_lt_of_le (by positivity) hB
  have h1 : |val v * val m| ≤ val m * B := by
    rw [abs_mul, abs_of_nonneg m0, mul_comm]; exact mul_le_mul_of_nonneg_left hv m0
  have e1 : val m * B ≤ (1 - 1 / 2 ^ 12) * B := mul_le_mul_of_nonneg_right m1 B0.le
  rw [mul_comm (val alpha)] at hu ⊢
  have hu' : (1 - val m) / 2 * B = B / 2 - val m * B / 2 := by ring
  rw [hu'] at hu
  have q0 : 0 ≤ val m * B := mul_nonneg m0 B0.le
  generalize val m * B = q at *
  rw [mul_comm (val m)]
  obtain ⟨f1, n1⟩ := mul_in fv fm (h1.trans (show q ≤ B by norm_num at e1; linarith)) hB (hB'.trans (by norm_num))
  obtain ⟨f2, n2⟩ := mul_in fg fa (hu.trans (show B / 2 - q / 2 ≤ B by linarith)) hB (hB'.trans (by norm_num))
  have s : |val (mulIeee v m) + val (mulIeee g alpha)| ≤ q + (B / 2 - q / 2) + 2 * (B / 2 ^ 24) := by
    generalize val (mulIeee v m) = a at *
    generalize val (mulIeee g alpha) = b at *
    generalize val v * val m = a' at *
    generalize val g * val alpha = b' at *
    rw [abs_le] at *
    constructor <;> linarith [n1.1, n1.2, n2.1, n2.2, h1.1, h1.2, hu.1, hu.2]
  obtain ⟨f3, n3⟩ := add_in f1 f2 (s.trans (show _ ≤ B by norm_num at e1 ⊢; linarith)) (hB'.trans (by norm_num))
  refine ⟨f3, ?_, ?_⟩
  all_goals
    generalize val (addIeee (mulIeee v m) (mulIeee g alpha)) = y at *
    generalize val (mulIeee v m) = a at *
    generalize val (mulIeee g alpha) = b at *
    generalize val v * val m = a' at *
    generalize val g * val alpha = b' at *
    rw [abs_le] at *
    obtain ⟨n1a, n1b⟩ := n1
    obtain ⟨n2a, n2b⟩ := n2
    obtain ⟨n3a, n3b⟩ := n3
    obtain ⟨sa, sb⟩ := s
    norm_num at *
    constructor <;> linarith

theorem vel_ok {o : Mode} (ho : SaneMode o) {alpha g v : F32.W} {B : ℝ} (fa : F32.Finite alpha) (fg : F32.Finite g) (fv : F32.Finite v)
    (hB : (2 : ℝ) ^ (-126 : Int) ≤ B) (hB' : B ≤ 2 ^ 120) (hv : |val v| ≤ B) (hu : |val alpha * val g| ≤ (1 - mu o) / 2 * B) :
    F32.Finite (vel1 o alpha g v) ∧ |val (vel1 o alpha g v)| ≤ B ∧
      |val (vel1 o alpha g v) - (mu o * val v + val alpha * val g)| ≤ 3 * B / 2 ^ 24 := by
  have B0 : 0 < B := lt_of_lt_of_le (by positivity) hB
  cases o with
  | plain =>
    unfold vel1 mu at *
    rw [mul_comm (val alpha)] at hu ⊢
    simp only [sub_zero] at hu
    obtain ⟨f1, n1⟩ := mul_in fg fa (hu.trans (show 1 / 2 * B ≤ B by linarith)) hB (hB'.trans (by norm_num))
    dsimp only
    refine ⟨f1, ?_, ?_⟩
    all_goals
      generalize val (mulIeee g alpha) = y at *
      generalize val g * val alpha = b' at *
      rw [abs_le] at *
      obtain ⟨n1a, n1b⟩ := n1
      obtain ⟨ha, hb⟩ := hu
      norm_num at *
      constructor <;> linarith
  | momentum m => exact blend ho.1 ho.2.1 ho.2.2 fa fg fv hB hB' hv hu
  | nesterov m m1 => exact blend ho.1 ho.2.1 ho.2.2.1 fa fg fv hB hB' hv hu

theorem go_ok {o : Mode} (ho : SaneMode o) {v v' : F32.W} {B : ℝ} (fv : F32.Finite v) (fv' : F32.Finite v')
    (hB : (2 : ℝ) ^ (-126 : Int) ≤ B) (hB' : B ≤ 2 ^ 120) (hv : |val v| ≤ B) (hv' : |val v'| ≤ B) :
    F32.Finite (go1 o v v') ∧ |val (go1 o v v')| ≤ 4 * B ∧ |val (go1 o v v') - dir o (val v) (val v')| ≤ 7 * B / 2 ^ 24 := by
  have B0 : 0 < B := lt_of_lt_of_le (by positivity) hB
  cases o with
  | plain => exact ⟨fv', by unfold go1; linarith, by unfold go1 dir; simp only [sub_self, abs_zero]; positivity⟩
  | momentum m => exact ⟨fv', by unfold go1; linarith, by unfold go1 dir; simp only [sub_self, abs_zero]; positivity⟩
  | nesterov m m1 =>
    obtain ⟨fm, m0, m2, fm1, m10, m12⟩ := ho
    have h1 : |val v' * val m1| ≤ 2 * B := by
      rw [abs_mul, abs_of_nonneg m10, mul_comm]; exact mul_le_mul m12 hv' (abs_nonneg _) (by norm_num)
    have h2 : |val v * val m| ≤ B := by
      rw [abs_mul, abs_of_nonneg m0]
      calc |val v| * val m ≤ B * 1 := mul_le_mul hv (m2.trans (by norm_num)) m0 B0.le
        _ = B := mul_one _
    obtain ⟨f1, n1⟩ := mul_in fv' fm1 h1 (hB.trans (by linarith)) (by norm_num at *; linarith)
    obtain ⟨f2, n2⟩ := mul_in fv fm h2 hB (hB'.trans (by norm_num))
    have s : |val (mulIeee v' m1) + val (F32.flip (mulIeee v m))| ≤ 7 / 2 * B := by
      rw [flip_val]
      generalize val (mulIeee v m) = a at *
      generalize val (mulIeee v' m1) = b at *
      generalize val v * val m = a' at *
      generalize val v' * val m1 = b' at *
      rw [abs_le] at *
      obtain ⟨n1a, n1b⟩ := n1
      obtain ⟨n2a, n2b⟩ := n2
      norm_num at *
      constructor <;> linarith
    obtain ⟨f3, n3⟩ := add_in f1 (flip_finite f2) s (by norm_num at *; linarith)
    unfold go1 dir
    dsimp only
    rw [mul_comm (val m1), mul_comm (val m)]
    refine ⟨f3, ?_, ?_⟩
    all_goals
      rw [flip_val] at s n3
      generalize val (addIeee (mulIeee v' m1) (F32.flip (mulIeee v m))) = y at *
      generalize val (mulIeee v m) = a at *
      generalize val (mulIeee v' m1) = b at *
      generalize val v * val m = a' at *
      generalize val v' * val m1 = b' at *
      rw [abs_le] at *
      obtain ⟨n1a, n1b⟩ := n1
      obtain ⟨n2a, n2b⟩ := n2
      obtain ⟨n3a, n3b⟩ := n3
      obtain ⟨sa, sb⟩ := s
      norm_num at *
      constructor <;> linarith

theorem dir_lip {o : Mode} (ho : SaneMode o) {v v' V V' r : ℝ} (h : |v - V| ≤ r) (h' : |v' - V'| ≤ r) :
    |dir o v v' - dir o V V'| ≤ 3 * r := by
  have r0 : 0 ≤ r := (abs_nonneg _).trans h
  cases o with
  | plain => unfold dir; linarith
  | momentum m => unfold dir; linarith
  | nesterov m m1 =>
    obtain ⟨fm, m0, m2, fm1, m10, m12⟩ := ho
    unfold dir
    have e : val m1 * v' - val m * v - (val m1 * V' - val m * V) = val m1 * (v' - V') - val m * (v - V) := by ring
    rw [e]
    refine (abs_sub _ _).trans ?_
    rw [abs_mul, abs_mul, abs_of_nonneg m10, abs_of_nonneg m0]
    have a1 : val m1 * |v' - V'| ≤ 2 * r := mul_le_mul m12 h' (abs_nonneg _) (by norm_num)
    have a2 : val m * |v - V| ≤ 1 * r := mul_le_mul (m2.trans (by norm_num)) h (abs_nonneg _) (by norm_num)
    linarith

/-- The hypotheses of one step of one element. -/
def Push1 (U : ℝ) (p : F32.W × F32.W) : Prop := F32.Finite p.1 ∧ F32.Finite p.2 ∧ |val p.1 * val p.2| ≤ U

theorem sgd_run {o : Mode} (ho : SaneMode o) {B : ℝ} {P : Int} (hB : (2 : ℝ) ^ (-100 : Int) ≤ B) (hP : P ≤ 120)
    (hBP : 4 * B ≤ (2 : ℝ) ^ (P - 25)) :
    ∀ (l : List (F32.W × F32.W)) {w v : F32.W} {X V E : ℝ}, (∀ p ∈ l, Push1 ((1 - mu o) / 2 * B) p) → F32.Finite w → F32.Finite v →
      |val w| ≤ (2 : ℝ) ^ P → |val v| ≤ B → |val v - V| ≤ 3 * B / 2 ^ 24 / (1 - mu o) → |val w - X| ≤ E →
      F32.Finite (run (sgd1 o) l (w, v)).1 ∧ F32.Finite (run (sgd1 o) l (w, v)).2 ∧ |val (run (sgd1 o) l (w, v)).1| ≤ (2 : ℝ) ^ P ∧
        |val (run (sgd1 o) l (w, v)).2| ≤ B ∧
        |val (run (sgd1 o) l (w, v)).2 - (sgd o (l.map fun p => (val p.1, val p.2)) (X, V)).2| ≤ 3 * B / 2 ^ 24 / (1 - mu o) ∧
        |val (run (sgd1 o) l (w, v)).1 - (sgd o (l.map fun p => (val p.1, val p.2)) (X, V)).1| ≤
          E + l.length * (16 * B / 2 ^ 24 / (1 - mu o) + (2 : ℝ) ^ P / 2 ^ 23)
  | [], w, v, X, V, E, _, fw, fv, hw, hv, hV, hW => by
    simp only [List.map_nil, List.length_nil, Nat.cast_zero, zero_mul, add_zero]
    exact ⟨fw, fv, hw, hv, hV, hW⟩
  | (alpha, g) :: l, w, v, X, V, E, hl, fw, fv, hw, hv, hV, hW => by
    obtain ⟨fa, fg, hu⟩ := hl _ List.mem_cons_self
    obtain ⟨mu0, mu1⟩ := mu_range ho
    have B0 : 0 < B := lt_of_lt_of_le (by positivity) hB
    have hBt : (2 : ℝ) ^ (-126 : Int) ≤ B := le_trans (zpow_le_zpow_right₀ (by norm_num) (by norm_num)) hB
    have p0 : (0 : ℝ) < (2 : ℝ) ^ P := by positivity
    have p25 : (2 : ℝ) ^ (P - 25) = (2 : ℝ) ^ P / 2 ^ 25 := by rw [zpow_sub₀ (by norm_num)]; norm_num
    have p24 : (2 : ℝ) ^ (P - 24) = (2 : ℝ) ^ P / 2 ^ 24 := by rw [zpow_sub₀ (by norm_num)]; norm_num
    have pl : (2 : ℝ) ^ P ≤ 2 ^ 120 := by
      calc (2 : ℝ) ^ P ≤ (2 : ℝ) ^ (120 : Int) := zpow_le_zpow_right₀ (by norm_num) hP
        _ = 2 ^ 120 := by norm_num
    have hP' : -126 ≤ P := by
      by_contra hc
      push Not at hc
      have : (2 : ℝ) ^ (P - 25) ≤ (2 : ℝ) ^ (-100 : Int) := zpow_le_zpow_right₀ (by norm_num) (by omega)
      linarith
    have hB' : B ≤ 2 ^ 120 := by rw [p25] at hBP; norm_num at *; linarith
    obtain ⟨f1, b1, n1⟩ := vel_ok ho fa fg fv hBt hB' hv hu
    obtain ⟨f2, b2, n2⟩ := go_ok ho fv f1 hBt hB' hv b1
    have nV := avg_step (c := val alpha) (g := val g) mu0 (by norm_num at mu1; linarith) hV n1
    have nd := dir_lip ho hV nV
    have hs : |val w + val (F32.flip (go1 o v (vel1 o alpha g v)))| ≤ (2 : ℝ) ^ P + (2 : ℝ) ^ P / 2 ^ 25 := by
      rw [flip_val, ← p25]
      refine (abs_add_le _ _).trans ?_
      rw [abs_neg]; linarith
    obtain ⟨f3, n3⟩ := add_in fw (flip_finite f2) hs (by norm_num at pl ⊢; linarith)
    have b3 := add_sat f3 hP' (lt_of_le_of_lt hs (by
      rw [p24]
      have : (2 : ℝ) ^ P / 2 ^ 25 < (2 : ℝ) ^ P / 2 ^ 24 := div_lt_div_of_pos_left p0 (by norm_num) (by norm_num)
      linarith))
    have key : |val (addIeee w (F32.flip (go1 o v (vel1 o alpha g v)))) - (X - dir o V (mu o * V + val alpha * val g))| ≤
        E + (16 * B / 2 ^ 24 / (1 - mu o) + (2 : ℝ) ^ P / 2 ^ 23) := by
      have d1 : (0 : ℝ) < 1 - mu o := by norm_num at mu1; linarith
      have c1 : 7 * B / 2 ^ 24 ≤ 7 * B / 2 ^ 24 / (1 - mu o) := by
        rw [le_div_iff₀ d1]
        have : 0 ≤ 7 * B / 2 ^ 24 * mu o := by positivity
        linarith
      have c2 : 3 * (3 * B / 2 ^ 24 / (1 - mu o)) + 7 * B / 2 ^ 24 / (1 - mu o) = 16 * B / 2 ^ 24 / (1 - mu o) := by ring
      rw [flip_val] at n3
      generalize val (addIeee w (F32.flip (go1 o v (vel1 o alpha g v)))) = y at *
      generalize dir o V (mu o * V + val alpha * val g) = D at *
      generalize dir o (val v) (val (vel1 o alpha g v)) = D' at *
      generalize val (go1 o v (vel1 o alpha g v)) = d at *
      generalize 3 * B / 2 ^ 24 / (1 - mu o) = r1 at *
      generalize 7 * B / 2 ^ 24 / (1 - mu o) = r2 at *
      generalize 16 * B / 2 ^ 24 / (1 - mu o) = r3 at *
      generalize 7 * B / 2 ^ 24 = r4 at *
      generalize (2 : ℝ) ^ P = p at *
      have n3' : |y - (val w + -d)| ≤ p / 2 ^ 23 := n3.trans (by norm_num; linarith)
      generalize p / 2 ^ 23 = p' at *
      clear n3
      rw [abs_le] at *
      obtain ⟨_, _⟩ := n3'
      obtain ⟨_, _⟩ := nd
      obtain ⟨_, _⟩ := n2
      obtain ⟨_, _⟩ := hW
      constructor <;> linarith
    obtain ⟨r1, r2, r3, r4, r5, r6⟩ := sgd_run ho hB hP hBP l (fun p hp => hl p (List.mem_cons_of_mem _ hp)) f3 f1 b3 b1 nV key
    refine ⟨r1, r2, r3, r4, r5, r6.trans (le_of_eq ?_)⟩
    rw [List.length_cons]; push_cast; ring

theorem push_col {U : ℝ} {n : Nat} {l : List (F32.W × List F32.W)} (hl : ∀ p ∈ l, Pushes n U p) {i : Nat} (hi : i < n) :
    ∀ p ∈ col l i, Push1 U p := by
  intro p hp
  obtain ⟨q, hq, rfl⟩ := List.mem_map.mp hp
  obtain ⟨a, b, c⟩ := hl q hq
  exact ⟨a, (c i hi).1, (c i hi).2⟩

theorem column_col (l : List (F32.W × List F32.W)) (i : Nat) : (col l i).map (fun p => (val p.1, val p.2)) = column l i := by
  unfold col column
  rw [List.map_map]; rfl

/-- C95: SGD, plain, with momentum or with Nesterov momentum, for any number of steps: nothing overflows, no element gets larger than
`2 ^ P`, the velocity is that of exact SGD but for a fixed distance, and the parameter but for a fixed distance per step. -/
theorem sgd_close (cpu : Cpu) {o : Mode} (ho : SaneMode o) {B : ℝ} {P : Int} (hB : (2 : ℝ) ^ (-100 : Int) ≤ B) (hP : P ≤ 120)
    (hBP : 4 * B ≤ (2 : ℝ) ^ (P - 25)) {w : List F32.W} {n : Nat} (hw : w.length = n)
    (hwf : ∀ i < n, F32.Finite (w.getD i 0) ∧ |val (w.getD i 0)| ≤ (2 : ℝ) ^ P) (l : List (F32.W × List F32.W))
    (hl : ∀ p ∈ l, Pushes n ((1 - mu o) / 2 * B) p) :
    (∃ w' v', Train (Sgd cpu o) l w w' v') ∧ ∀ w' v', Train (Sgd cpu o) l w w' v' → SgdClose o B P n l w w' v' := by
  have hz : (List.replicate w.length (0 : F32.W)).length = n := by simp [hw]
  have hg : ∀ p ∈ l, p.2.length = n := fun p hp => (hl p hp).2.1
  refine ⟨steps_exists (sgd_cellwise cpu o) l hw hz hg, fun w' v' h => ?_⟩
  obtain ⟨lw, lv, e⟩ := steps_cell (sgd_cellwise cpu o) l hw hz hg h
  refine ⟨lw, lv, fun i hi => ?_⟩
  have e' := e i hi
  rw [zeros_get] at e'
  have B0 : 0 < B := lt_of_lt_of_le (by positivity) hB
  obtain ⟨mu0, mu1⟩ := mu_range ho
  have d1 : (0 : ℝ) < 1 - mu o := by norm_num at mu1; linarith
  have z : val (0 : F32.W) = 0 := by simp [val, unpack]
  obtain ⟨r1, r2, r3, r4, r5, r6⟩ := sgd_run ho hB hP hBP (col l i) (X := val (w.getD i 0)) (V := 0) (E := 0) (push_col hl hi) (hwf i hi).1
    (v := 0) (by unfold F32.Finite; decide) (hwf i hi).2 (by rw [z, abs_zero]; exact B0.le)
    (by rw [z, sub_zero, abs_zero]; positivity) (by rw [sub_self, abs_zero])
  rw [column_col] at r5 r6
  rw [← e'] at r1 r2 r3 r4 r5 r6
  have hlen : (col l i).length = l.length := by unfold col; rw [List.length_map]
  rw [hlen, zero_add] at r6
  exact ⟨r1, r2, r3, r4, r5, r6⟩

end Verif.Opt32
