import Verif.Lemmas.CrossEntropy32

set_option autoImplicit false
set_option linter.unusedSimpArgs false

/-!
# C87: the cross entropy of float32 scores, from the instructions to the real numbers

For every vector of up to 2^20 scores that are finite, up to 2^126, or minus infinity, and every class with a finite score, on
every amd64 processor and whatever is in the registers and elsewhere in memory, `losses.CrossEntropy` ends with one result:
a finite number, not negative, close to the negative logarithm of the softmax.  There is no overflow because the maximum is
subtracted first (compare `Props/Crf32Overflow.lean`, where it is not).
-/

namespace Verif.CrossEntropy32
open Verif.F32 Verif.Asm Verif.Spec Verif.Spec.Kernels Verif.Spec.Softmax32 Verif.Spec.CrossEntropy32 Verif.Softmax32

theorem weight_nonneg (z : F32.W) : 0 ≤ weight z := by
  unfold weight; split
  · exact le_rfl
  · exact (Real.exp_pos _).le

/-- The sum of the exponentials, relative to the exact one. -/
theorem sum_close {n : Nat} (hn : n ≤ 2 ^ 20) {x : Nat → F32.W} {m : F32.W} {e : Nat → F32.W} {S : F32.W}
    (hmax : ∃ k < n, x k = m) (hm : F32.Finite m) (hle : ∀ i < n, weight (x i) ≤ Real.exp (val m))
    (he : ∀ i < n, 0 ≤ val (e i) ∧
      |val (e i) - weight (x i) / Real.exp (val m)| ≤ α * (weight (x i) / Real.exp (val m)) + (2 : ℝ) ^ (-125 : Int))
    (hS : |val S - ∑ i ∈ Finset.range n, val (e i)| ≤
      growth Asm.ulp (n - 1) * ∑ i ∈ Finset.range n, (|val (e i)| + Asm.tiny)) :
    1 ≤ ∑ j ∈ Finset.range n, weight (x j) / Real.exp (val m) ∧
    ∑ j ∈ Finset.range n, weight (x j) / Real.exp (val m) ≤ n ∧
    |val S - ∑ j ∈ Finset.range n, weight (x j) / Real.exp (val m)| ≤
      (5802 / 1000000000 + 1067 / 1000 * (n / 2 ^ 24)) * ∑ j ∈ Finset.range n, weight (x j) / Real.exp (val m) := by
  set w : Nat → ℝ := fun i => weight (x i) / Real.exp (val m) with hw
  set T := ∑ j ∈ Finset.range n, w j with hT
  set E := ∑ j ∈ Finset.range n, val (e j) with hE
  have hw0 : ∀ i, 0 ≤ w i := fun i => div_nonneg (weight_nonneg _) (Real.exp_pos _).le
  have hnr : (n : ℝ) ≤ 1048576 := by exact_mod_cast (show n ≤ 1048576 from hn)
  have hn0 : (0 : ℝ) ≤ n := Nat.cast_nonneg n
  have hT1 : 1 ≤ T := by
    obtain ⟨k, hk, hxk⟩ := hmax
    have h1 : w k = 1 := by
      have : x k ≠ negInf := fun h => not_finite_inf.2 (h ▸ hxk ▸ hm)
      rw [hxk] at this
      simp only [hw, weight, hxk, if_neg this]
      exact div_self (Real.exp_ne_zero _)
    rw [← h1]
    exact Finset.single_le_sum (fun j _ => hw0 j) (Finset.mem_range.mpr hk)
  have hTn : T ≤ n := by
    have : T ≤ ∑ j ∈ Finset.range n, (1 : ℝ) :=
      Finset.sum_le_sum fun i hi => (div_le_one (Real.exp_pos _)).mpr (hle i (Finset.mem_range.mp hi))
    simpa using this
  have hET : |E - T| ≤ α * T + n * (2 : ℝ) ^ (-125 : Int) := by
    rw [hE, hT, ← Finset.sum_sub_distrib]
    refine (Finset.abs_sum_le_sum_abs _ _).trans ((Finset.sum_le_sum fun i hi => (he i (Finset.mem_range.mp hi)).2).trans ?_)
    rw [Finset.sum_add_distrib, ← Finset.mul_sum]
    simp [hT, hw]
  have habsE : ∑ i ∈ Finset.range n, (|val (e i)| + Asm.tiny) = E + n * Asm.tiny := by
    rw [Finset.sum_add_distrib]
    simp only [Finset.sum_const, Finset.card_range, nsmul_eq_mul, hE]
    congr 1
    exact Finset.sum_congr rfl fun i hi => abs_of_nonneg (he i (Finset.mem_range.mp hi)).1
  rw [habsE] at hS
  have hnt : n * Asm.tiny ≤ 1 / 10 ^ 12 := by unfold Asm.tiny; norm_num; linarith
  have hn125 : n * (2 : ℝ) ^ (-125 : Int) ≤ 1 / 10 ^ 12 := by norm_num; linarith
  exact ⟨hT1, hTn, sum_near hT1 (Finset.sum_nonneg fun i hi => (he i (Finset.mem_range.mp hi)).1) hET hn125
    (mul_nonneg hn0 Asm.tiny_pos.le) hnt hS (growth_small hn) (by positivity)⟩

theorem log_two20 : Real.log (2 ^ 20 : ℝ) ≤ 139 / 10 := by
  rw [Real.log_pow]
  have := Real.log_two_lt_d9
  norm_num at this ⊢
  linarith

/-- The loss, in terms of the logarithm of the sum. -/
theorem crossEntropy_eq {n : Nat} {x : Nat → F32.W} {c : Nat} (hc : c < n) (hx : F32.Finite (x c)) :
    crossEntropy n x c = logSumExp n x - val (x c) := by
  have hne : x c ≠ negInf := fun h => not_finite_inf.2 (h ▸ hx)
  have hwc : weight (x c) = Real.exp (val (x c)) := by unfold weight; rw [if_neg hne]
  have hpos : 0 < ∑ j ∈ Finset.range n, weight (x j) :=
    lt_of_lt_of_le (by rw [hwc]; exact Real.exp_pos _)
      (Finset.single_le_sum (fun i _ => weight_nonneg (x i)) (Finset.mem_range.mpr hc))
  unfold crossEntropy softmax logSumExp
  rw [hwc, Real.log_div (Real.exp_ne_zero _) hpos.ne', Real.log_exp]
  ring

/-- The numbers. -/
theorem room {A M S T a b : ℝ} {n : Nat} (hn : n ≤ 2 ^ 20) (hA : 0 ≤ A) (hM : |M| ≤ A) (hT1 : 1 ≤ T) (hTn : T ≤ n)
    (hS1 : 1 ≤ S) (hST : |S - T| ≤ (5802 / 1000000000 + 1067 / 1000 * (n / 2 ^ 24)) * T)
    (ha0 : 0 ≤ a) (ha : |a - Real.log S| ≤ Real.log S / 2 ^ 23 + (2 : ℝ) ^ (-126 : Int))
    (hb : |b - (M + a)| ≤ slack (M + a)) :
    a ≤ 15 ∧ |b - (M + Real.log T)| ≤ CrossEntropy32.tolSum n A := by
  have hnr : (n : ℝ) ≤ 1048576 := by exact_mod_cast (show n ≤ 1048576 from hn)
  have hn0 : (0 : ℝ) ≤ n := Nat.cast_nonneg n
  obtain ⟨y, hy⟩ : ∃ y : ℝ, y = n / 2 ^ 24 := ⟨_, rfl⟩
  have hy0 : 0 ≤ y := by rw [hy]; positivity
  have hy1 : y ≤ 1 / 16 := by rw [hy, div_le_iff₀ (by positivity)]; norm_num; linarith
  rw [← hy] at hST
  obtain ⟨κ, hκ⟩ : ∃ κ : ℝ, κ = 5802 / 1000000000 + 1067 / 1000 * y := ⟨_, rfl⟩
  rw [← hκ] at hST
  have hκ0 : 0 ≤ κ := by rw [hκ]; positivity
  have hκ1 : κ ≤ 7 / 100 := by rw [hκ]; linarith
  have hT0 : 0 < T := by linarith
  have hS0 : 0 < S := by linarith
  obtain ⟨s1, s2⟩ := abs_le.mp hST
  -- the logarithm of the sum
  have hlogd : |Real.log S - Real.log T| ≤ 10 / 9 * κ := by
    rw [← Real.log_div hS0.ne' hT0.ne']
    have hq0 : 0 < S / T := by positivity
    have q1 : S / T ≤ 1 + κ := by rw [div_le_iff₀ hT0]; linarith
    have q2 : 1 - κ ≤ S / T := by rw [le_div_iff₀ hT0]; linarith
    rw [abs_le]
    constructor
    · have h := Real.one_sub_inv_le_log_of_pos hq0
      have h2 : (S / T)⁻¹ ≤ 1 + 10 / 9 * κ := by
        refine (inv_anti₀ (by linarith) q2).trans ?_
        rw [inv_le_iff_one_le_mul₀ (by linarith)]
        nlinarith
      linarith
    · have h := Real.log_le_sub_one_of_pos hq0
      linarith
  have hlogT : Real.log T ≤ 139 / 10 := (Real.log_le_log hT0 (hTn.trans (by norm_num at *; linarith))).trans log_two20
  have hlogT0 : 0 ≤ Real.log T := Real.log_nonneg hT1
  have hlogS0 : 0 ≤ Real.log S := Real.log_nonneg hS1
  obtain ⟨d1, d2⟩ := abs_le.mp hlogd
  have hlogS : Real.log S ≤ 14 := by linarith
  have ht : (2 : ℝ) ^ (-126 : Int) ≤ 1 / 2 ^ 40 := by norm_num
  have ht0 : (0 : ℝ) < (2 : ℝ) ^ (-126 : Int) := by positivity
  obtain ⟨a1, a2⟩ := abs_le.mp ha
  unfold slack at hb
  generalize (2 : ℝ) ^ (-126 : Int) = t at *
  generalize Real.log S = LS at *
  generalize Real.log T = LT at *
  have ha14 : a ≤ 15 := by norm_num at a2 ht; linarith
  obtain ⟨m1, m2⟩ := abs_le.mp hM
  have hMa : max |M + a| t ≤ A + 15 := by
    refine max_le (abs_le.mpr ⟨by linarith, by linarith⟩) ?_
    norm_num at ht; linarith
  have hb' : |b - (M + a)| ≤ (A + 15) / 2 ^ 24 := hb.trans (by gcongr)
  obtain ⟨b1, b2⟩ := abs_le.mp hb'
  have htol : CrossEntropy32.tolSum n A = 1 / 2 ^ 16 + 2 * y + A / 2 ^ 24 := by
    unfold CrossEntropy32.tolSum; rw [hy]; ring
  refine ⟨ha14, ?_⟩
  rw [htol, abs_le]
  constructor
  · norm_num at *; linarith
  · norm_num at *; linarith

/-- **C87: `LogSumExp`.** -/
theorem log_sum_exp (cpu : Cpu) (j : ExpLog.Lane) {exp log : F32.W → F32.W} (hexp : GoodExp exp) (hone : ExpOne exp)
    (hlog : GoodLog log) {x y e : Asm.Sl} (hy : y.len = x.len) (he : e.len = x.len) (hn : x.len ≤ 2 ^ 20)
    (haly : y.base % 4 = 0) (hale : e.base % 4 = 0) (hxy : Apart 4 x.len x.base y.base) (hye : Apart 4 x.len y.base e.base)
    {A : ℝ} (hA : A ≤ 2 ^ 126) (s : St F32.W)
    (hx : ∀ i < x.len, Score (s.mem (x.base + 4 * i)))
    (hxA : ∀ i < x.len, F32.Finite (s.mem (x.base + 4 * i)) → |val (s.mem (x.base + 4 * i))| ≤ A)
    (hfin : ∃ i < x.len, F32.Finite (s.mem (x.base + 4 * i))) :
    ∃ t b, (∀ t' b', LogSumExp cpu j exp log x y e s t' b' ↔ t' = t ∧ b' = b) ∧
      (∀ a, (∀ i < x.len, a ≠ y.base + 4 * i) → (∀ i < x.len, a ≠ e.base + 4 * i) → t.mem a = s.mem a) ∧
      F32.Finite b ∧ (∀ i < x.len, F32.Finite (s.mem (x.base + 4 * i)) → val (s.mem (x.base + 4 * i)) ≤ val b) ∧
      |val b - logSumExp x.len (fun k => s.mem (x.base + 4 * k))| ≤ tolSum x.len A ∧ |val b| ≤ A + 16 + A / 2 ^ 24 := by
  obtain ⟨c, hc, hxc⟩ := hfin
  -- the maximum
  have hsc' : ∀ v ∈ elems 4 s.mem x.base x.len, Score v := fun v hv => by
    obtain ⟨i, hi, rfl⟩ := mem_elems.mp hv
    exact hx i hi
  obtain ⟨m, hm, hmem, hmf, hmax⟩ := max32_spec hsc' (mem_elems.mpr ⟨c, hc, rfl⟩) hxc
  obtain ⟨km, hkm, hxm⟩ := mem_elems.mp hmem
  have hle : ∀ i < x.len, F32.Finite (s.mem (x.base + 4 * i)) → val (s.mem (x.base + 4 * i)) ≤ val m :=
    fun i hi hf => hmax _ (mem_elems.mpr ⟨i, hi, rfl⟩) hf
  -- minus the maximum
  obtain ⟨s₁, hc₁, he₁, ho₁⟩ := addConst_kernel cpu .f32 (F32.alu divIeee) (c := flip m) (x := x) (y := y)
    (fun a => F32.add_comm' a (flip m)) hy.ge (.inr hxy) s
  have hd := elems_inj _ he₁
  -- the exponential
  obtain ⟨m₂, hex, hm₂, ho₂⟩ := exp_between cpu j exp haly hale (by omega) (by rw [hy]; exact hye) s₁.mem
  have hgood : ∀ i, GoodExp (if i < y.len / (expKernel cpu j).1 * (expKernel cpu j).1 then (expKernel cpu j).2 else exp) := by
    intro i; split
    · exact good_kernel cpu j
    · exact hexp
  have hgone : ∀ i, ExpOne (if i < y.len / (expKernel cpu j).1 * (expKernel cpu j).1 then (expKernel cpu j).2 else exp) := by
    intro i; split
    · exact one_kernel cpu j
    · exact hone
  have hev : ∀ i < x.len, putWords s₁.mem m₂ (e.base + 4 * i) =
      (if i < y.len / (expKernel cpu j).1 * (expKernel cpu j).1 then (expKernel cpu j).2 else exp)
        (addIeee (s.mem (x.base + 4 * i)) (flip m)) := by
    intro i hi
    rw [hm₂ i (hy ▸ hi), show s₁.mem (y.base + 4 * i) = addIeee (s.mem (x.base + 4 * i)) (flip m) from hd i hi]
  have hes : ∀ i < x.len, F32.Finite (putWords s₁.mem m₂ (e.base + 4 * i)) ∧ 0 ≤ val (putWords s₁.mem m₂ (e.base + 4 * i)) ∧
      |val (putWords s₁.mem m₂ (e.base + 4 * i)) - weight (s.mem (x.base + 4 * i)) / Real.exp (val m)| ≤
        α * (weight (s.mem (x.base + 4 * i)) / Real.exp (val m)) + (2 : ℝ) ^ (-125 : Int) := by
    intro i hi
    rw [hev i hi]
    obtain ⟨e1, e2, -, e4⟩ := exp_step (hgood i) (hx i hi) hmf (hle i hi)
    exact ⟨e1, e2, e4⟩
  have hwle : ∀ i < x.len, weight (s.mem (x.base + 4 * i)) ≤ Real.exp (val m) := fun i hi => weight_le (hx i hi) (hle i hi)
  have hes2 : ∀ i < x.len, val (putWords s₁.mem m₂ (e.base + 4 * i)) ≤ 2 := by
    intro i hi
    obtain ⟨e1, e2, e4⟩ := hes i hi
    have h1 : weight (s.mem (x.base + 4 * i)) / Real.exp (val m) ≤ 1 := (div_le_one (Real.exp_pos _)).mpr (hwle i hi)
    have h2 := (abs_le.mp e4).2
    have h3 : α * (weight (s.mem (x.base + 4 * i)) / Real.exp (val m)) ≤ 1 / 2 := by
      have : α * (weight (s.mem (x.base + 4 * i)) / Real.exp (val m)) ≤ α * 1 :=
        mul_le_mul_of_nonneg_left h1 (by unfold α; positivity)
      refine this.trans ?_
      unfold α; norm_num
    have h4 : (2 : ℝ) ^ (-125 : Int) ≤ 1 / 2 := by norm_num
    linarith
  have hbound : ∀ v ∈ elems 4 ({ s₁ with mem := putWords s₁.mem m₂ } : St F32.W).mem e.base e.len,
      F32.Finite v ∧ |val v| ≤ 2 := by
    intro v hv
    obtain ⟨i, hi, rfl⟩ := mem_elems.mp hv
    obtain ⟨e1, e2, -⟩ := hes i (he ▸ hi)
    exact ⟨e1, by rw [abs_of_nonneg e2]; exact hes2 i (he ▸ hi)⟩
  -- the exponential of the largest score
  have hek : 1 ≤ val (putWords s₁.mem m₂ (e.base + 4 * km)) := by
    rw [hev km hkm, hxm]
    have hz := add_near hmf (flip_finite hmf) (by rw [flip_val, add_neg_cancel, abs_zero]; unfold maxFin; positivity)
    rw [flip_val, add_neg_cancel] at hz
    exact (hgone km _ hz.1.1 (hz.2 Asm.exact_zero)).2.ge
  -- the sum
  obtain ⟨t, w, hc₃, hw, hmem₃, hwf, hws⟩ := sum_small divIeee cpu hale { s₁ with mem := putWords s₁.mem m₂ }
    (he ▸ hn.trans (by norm_num)) hbound
  rw [sum_elems, sum_elems, he] at hws
  have hw1 : 1 ≤ val w := by
    obtain ⟨t', w', g1, g2, g3⟩ := sum_from_one divIeee cpu hale { s₁ with mem := putWords s₁.mem m₂ }
      (he ▸ hn.trans (by norm_num)) (fun i hi => ⟨(hes i (he ▸ hi)).1, (hes i (he ▸ hi)).2.1, by
        show val (putWords s₁.mem m₂ (e.base + 4 * i)) ≤ 4
        have := hes2 i (he ▸ hi); linarith⟩) ⟨km, by rw [he]; exact hkm, hek⟩
    have : t' = t := ((hc₃ t').mp ((g1 t').mpr rfl))
    rw [this, hw] at g2; cases g2
    exact g3
  obtain ⟨hT1, hTn, hST⟩ := sum_close hn (x := fun k => s.mem (x.base + 4 * k)) ⟨km, hkm, hxm⟩ hmf hwle
    (fun i hi => ⟨(hes i hi).2.1, (hes i hi).2.2⟩) hws
  -- the logarithm and the two additions
  obtain ⟨laf, la0, lan⟩ := hlog w hwf hw1
  have hmA : |val m| ≤ A := by rw [← hxm]; exact hxA km hkm (hxm ▸ hmf)
  have hA0 : 0 ≤ A := (abs_nonneg _).trans hmA
  obtain ⟨a1, a2⟩ := abs_le.mp hmA
  have hnr : (x.len : ℝ) ≤ 1048576 := by exact_mod_cast (show x.len ≤ 1048576 from hn)
  have hla : val (log w) ≤ 2 ^ 23 := by
    have hS : val w ≤ 2 ^ 22 := by
      have h1 := (abs_le.mp hST).2
      have h2 : (5802 / 1000000000 + 1067 / 1000 * ((x.len : ℝ) / 2 ^ 24)) ≤ 1 := by norm_num; linarith
      have h3 := mul_le_mul_of_nonneg_right h2 (le_trans zero_le_one hT1)
      norm_num; linarith
    have h1 := (abs_le.mp lan).2
    have h2 := Real.log_le_sub_one_of_pos (show 0 < val w by linarith)
    have h3 : (2 : ℝ) ^ (-126 : Int) ≤ 1 := by norm_num
    generalize (2 : ℝ) ^ (-126 : Int) = t₀ at *
    norm_num at h1 hS ⊢
    linarith
  have bf : F32.Finite (addIeee m (log w)) := by
    refine add_fin hmf laf (abs_le.mpr ⟨?_, ?_⟩) <;> unfold maxFin <;> norm_num at * <;> linarith
  have bn := add_near_fin bf
  have bge : val m ≤ val (addIeee m (log w)) := add_ge bf (finite_exact hmf).1 (by linarith)
  have hlse : logSumExp x.len (fun k => s.mem (x.base + 4 * k)) =
      val m + Real.log (∑ j ∈ Finset.range x.len, weight (s.mem (x.base + 4 * j)) / Real.exp (val m)) := by
    have hpos : 0 < ∑ j ∈ Finset.range x.len, weight (s.mem (x.base + 4 * j)) / Real.exp (val m) := by
      have := hT1; linarith
    rw [← Finset.sum_div] at hpos ⊢
    have hpos' : 0 < ∑ j ∈ Finset.range x.len, weight (s.mem (x.base + 4 * j)) := by
      have := mul_pos hpos (Real.exp_pos (val m))
      rwa [div_mul_cancel₀ _ (Real.exp_ne_zero _)] at this
    rw [Real.log_div hpos'.ne' (Real.exp_ne_zero _), Real.log_exp]
    unfold logSumExp
    ring
  obtain ⟨r1, r2⟩ := room hn hA0 hmA hT1 hTn hw1 hST la0 lan bn
  refine ⟨t, _, fun t' b' => ⟨?_, ?_⟩, fun a h1 h2 => ?_, bf, fun i hi hf => (hle i hi hf).trans bge, hlse ▸ r2, ?_⟩
  · rintro ⟨m', t₁, n₂, w', a', g2, g3, g4, g5, g6, g7, g8⟩
    rw [reduceMax_eq, hm] at g2; cases g2
    obtain rfl := (hc₁ t₁).mp g3
    rw [hex] at g4; cases g4
    obtain rfl := (hc₃ t').mp g5
    rw [hw] at g6; cases g6
    obtain rfl := (log1_iff ..).mp g7
    exact ⟨rfl, (add1_iff ..).mp g8⟩
  · rintro ⟨rfl, rfl⟩
    exact ⟨m, s₁, m₂, w, _, by rw [reduceMax_eq, hm], (hc₁ _).mpr rfl, hex, (hc₃ _).mpr rfl, hw,
      (log1_iff ..).mpr rfl, (add1_iff ..).mpr rfl⟩
  · rw [hmem₃]
    show putWords s₁.mem m₂ a = s.mem a
    rw [ho₂ a (by rw [hy]; exact h2), ho₁ a h1]
  · have ht : (2 : ℝ) ^ (-126 : Int) ≤ 1 := by norm_num
    have h1 : slack (val m + val (log w)) ≤ (A + 15) / 2 ^ 24 := by
      unfold slack
      gcongr
      exact max_le (abs_le.mpr ⟨by linarith, by linarith⟩) (by linarith)
    obtain ⟨c1, c2⟩ := abs_le.mp (bn.trans h1)
    rw [abs_le]
    constructor
    · norm_num at c1 ⊢; linarith
    · norm_num at c2 ⊢; linarith

/-- **C87: the cross entropy.** -/
theorem cross_entropy (cpu : Cpu) (j : ExpLog.Lane) {exp log : F32.W → F32.W} (hexp : GoodExp exp) (hone : ExpOne exp)
    (hlog : GoodLog log) {x y e : Asm.Sl} (hy : y.len = x.len) (he : e.len = x.len) (hn : x.len ≤ 2 ^ 20)
    (haly : y.base % 4 = 0) (hale : e.base % 4 = 0) (hxy : Apart 4 x.len x.base y.base) (hye : Apart 4 x.len y.base e.base)
    {c : Nat} (hc : c < x.len) {A : ℝ} (hA : A ≤ 2 ^ 126) (s : St F32.W)
    (hx : ∀ i < x.len, Score (s.mem (x.base + 4 * i)))
    (hxA : ∀ i < x.len, F32.Finite (s.mem (x.base + 4 * i)) → |val (s.mem (x.base + 4 * i))| ≤ A)
    (hxc : F32.Finite (s.mem (x.base + 4 * c))) :
    ∃ t l, (∀ t' l', Runs cpu j exp log x y e c s t' l' ↔ t' = t ∧ l' = l) ∧
      (∀ a, (∀ i < x.len, a ≠ y.base + 4 * i) → (∀ i < x.len, a ≠ e.base + 4 * i) → t.mem a = s.mem a) ∧
      F32.Finite l ∧ 0 ≤ val l ∧
      |val l - crossEntropy x.len (fun k => s.mem (x.base + 4 * k)) c| ≤ CrossEntropy32.tol x.len A := by
  obtain ⟨t, b, h1, h2, bf, hge, hb, hbA⟩ := log_sum_exp cpu j hexp hone hlog hy he hn haly hale hxy hye hA s hx hxA ⟨c, hc, hxc⟩
  have hcv : (elems 4 s.mem x.base x.len)[c]? = some (s.mem (x.base + 4 * c)) := by simp [elems, hc]
  have hcA := hxA c hc hxc
  have hA0 : 0 ≤ A := (abs_nonneg _).trans hcA
  obtain ⟨b1, b2⟩ := abs_le.mp hcA
  obtain ⟨b3, b4⟩ := abs_le.mp hbA
  have lf : F32.Finite (addIeee (flip (s.mem (x.base + 4 * c))) b) := by
    refine add_fin (flip_finite hxc) bf (abs_le.mpr ⟨?_, ?_⟩) <;> rw [flip_val] <;> unfold maxFin <;> norm_num at * <;> linarith
  have ln := add_near_fin lf
  rw [flip_val] at ln
  refine ⟨t, _, fun t' l' => ⟨?_, ?_⟩, h2, lf, add_ge lf Asm.exact_zero ?_, ?_⟩
  · rintro ⟨v, b', g1, g2, g3⟩
    rw [hcv] at g1; cases g1
    obtain ⟨rfl, rfl⟩ := (h1 t' b').mp g2
    exact ⟨rfl, (add1_iff ..).mp g3⟩
  · rintro ⟨rfl, rfl⟩
    exact ⟨_, b, hcv, (h1 _ _).mpr ⟨rfl, rfl⟩, (add1_iff ..).mpr rfl⟩
  · rw [flip_val]
    have := hge c hc hxc
    linarith
  · rw [crossEntropy_eq (x := fun k => s.mem (x.base + 4 * k)) hc hxc]
    have ht : (2 : ℝ) ^ (-126 : Int) ≤ 1 := by norm_num
    have hs : slack (-val (s.mem (x.base + 4 * c)) + val b) ≤ (2 * A + 16 + A / 2 ^ 24) / 2 ^ 24 := by
      unfold slack
      gcongr
      refine max_le (abs_le.mpr ⟨by linarith, by linarith⟩) ?_
      have : 0 ≤ A / 2 ^ 24 := by positivity
      linarith
    obtain ⟨l1, l2⟩ := abs_le.mp (ln.trans hs)
    obtain ⟨c1, c2⟩ := abs_le.mp hb
    unfold tolSum at c1 c2
    unfold CrossEntropy32.tol
    rw [abs_le]
    constructor
    · norm_num at l1 c1 ⊢; linarith
    · norm_num at l2 c2 ⊢; linarith

/-- A class whose score is minus infinity, as a mask leaves it, has infinite loss: its probability is 0. -/
theorem cross_entropy_masked (cpu : Cpu) (j : ExpLog.Lane) {exp log : F32.W → F32.W} (hexp : GoodExp exp) (hone : ExpOne exp)
    (hlog : GoodLog log) {x y e : Asm.Sl} (hy : y.len = x.len) (he : e.len = x.len) (hn : x.len ≤ 2 ^ 20)
    (haly : y.base % 4 = 0) (hale : e.base % 4 = 0) (hxy : Apart 4 x.len x.base y.base) (hye : Apart 4 x.len y.base e.base)
    {c : Nat} (hc : c < x.len) {A : ℝ} (hA : A ≤ 2 ^ 126) (s : St F32.W)
    (hx : ∀ i < x.len, Score (s.mem (x.base + 4 * i)))
    (hxA : ∀ i < x.len, F32.Finite (s.mem (x.base + 4 * i)) → |val (s.mem (x.base + 4 * i))| ≤ A)
    (hfin : ∃ i < x.len, F32.Finite (s.mem (x.base + 4 * i))) (hxc : s.mem (x.base + 4 * c) = negInf) :
    softmax x.len (fun k => s.mem (x.base + 4 * k)) c = 0 ∧
    ∃ t, ∀ t' l', Runs cpu j exp log x y e c s t' l' ↔ t' = t ∧ l' = posInf := by
  refine ⟨by unfold softmax weight; rw [if_pos hxc, zero_div], ?_⟩
  obtain ⟨t, b, h1, -, bf, -⟩ := log_sum_exp cpu j hexp hone hlog hy he hn haly hale hxy hye hA s hx hxA hfin
  have hcv : (elems 4 s.mem x.base x.len)[c]? = some negInf := by simp [elems, hc, hxc]
  have hl : addIeee (flip negInf) b = posInf := by
    have h0 : flip negInf = posInf := by decide
    have h1 : isNaN posInf = false := by decide
    have h2 : isInf posInf = true := by decide
    rw [h0]
    unfold addIeee
    rw [h1, h2, bf.not_nan, bf.not_inf]
    simp
  refine ⟨t, fun t' l' => ⟨?_, ?_⟩⟩
  · rintro ⟨v, b', g1, g2, g3⟩
    rw [hcv] at g1; cases g1
    obtain ⟨rfl, rfl⟩ := (h1 t' b').mp g2
    exact ⟨rfl, by rw [← hl]; exact (add1_iff ..).mp g3⟩
  · rintro ⟨rfl, rfl⟩
    exact ⟨_, b, hcv, (h1 _ _).mpr ⟨rfl, rfl⟩, (add1_iff ..).mpr hl.symm⟩

end Verif.CrossEntropy32
