import Verif.Lemmas.Softmax32

set_option autoImplicit false
set_option linter.unusedSimpArgs false

/-!
# C84: `Softmax` of float32, from the instructions to the real numbers

For every vector of up to 2^20 elements that are finite or minus infinity (not all), on every amd64 processor and whatever
is in the registers and elsewhere in memory, `Dense[float32].Softmax` ends in one state, in which every element of the result
is a finite number, not negative, within `2^-16 + n/2^23` of the softmax of the real numbers (and `2^-124`); elements at minus
infinity get exactly 0; nothing else in memory is changed.
-/

namespace Verif.Softmax32
open Verif.F32 Verif.Asm Verif.Spec Verif.Spec.Kernels Verif.Spec.Softmax32

theorem elems_length {R : Type} (es : Nat) (m : Nat → R) (p n : Nat) : (elems es m p n).length = n := by simp [elems]

theorem mem_elems {R : Type} {es : Nat} {m : Nat → R} {p n : Nat} {v : R} :
    v ∈ elems es m p n ↔ ∃ i < n, m (p + es * i) = v := by simp [elems]

theorem elems_inj {R : Type} {es : Nat} {m m' : Nat → R} {p p' n : Nat} (f : R → R)
    (h : elems es m p n = (elems es m' p' n).map f) : ∀ i < n, m (p + es * i) = f (m' (p' + es * i)) := by
  intro i hi
  have := congrArg (fun l => l[i]?) h
  simpa [elems, hi] using this

theorem sum_elems (es : Nat) (m : Nat → F32.W) (p n : Nat) (f : F32.W → ℝ) :
    ((elems es m p n).map f).sum = ∑ i ∈ Finset.range n, f (m (p + es * i)) := by
  simp only [elems, List.map_map]
  induction n with
  | zero => simp
  | succ n ih => rw [List.range_succ, Finset.sum_range_succ]; simp [ih]

/-- `Exp32` in place, on the bytes. -/
theorem exp_place (cpu : Cpu) (j : ExpLog.Lane) (scalar : F32.W → F32.W) {out : Asm.Sl} (hal : out.base % 4 = 0)
    (m : Nat → F32.W) :
    ∃ m', ExpLog.exp32 (expKernel cpu j).1 (expKernel cpu j).2 scalar ⟨out.base / 4, out.len⟩ ⟨out.base / 4, out.len⟩
        (words m) = some m' ∧
      (∀ i < out.len, putWords m m' (out.base + 4 * i) =
        (if i < out.len / (expKernel cpu j).1 * (expKernel cpu j).1 then (expKernel cpu j).2 else scalar)
          (m (out.base + 4 * i))) ∧
      OnlyAt 4 out.base out.len m (putWords m m') := by
  obtain ⟨m', h1, h2, h3⟩ := ExpLog.exp32_spec (expKernel cpu j).1 (expKernel cpu j).2 scalar ⟨out.base / 4, out.len⟩
    ⟨out.base / 4, out.len⟩ (words m) le_rfl (fun a b _ _ h => by simpa using h)
  have hb : 4 * (out.base / 4) = out.base := by omega
  refine ⟨m', h1, fun i hi => ?_, fun a ha => ?_⟩
  · have := h2 i hi
    unfold putWords
    rw [if_pos (by omega), show (out.base + 4 * i) / 4 = out.base / 4 + i by omega, this]
    simp only [words]
    rw [show 4 * (out.base / 4 + i) = out.base + 4 * i by omega]
    split <;> rfl
  · unfold putWords
    split
    · rename_i h4
      rw [h3 (a / 4) fun i hi hc => ha i hi (by simp only at hc; omega)]
      show m (4 * (a / 4)) = m a
      congr 1; omega
    · rfl

theorem weight_le {x m : F32.W} (hx : Score x) (hle : F32.Finite x → val x ≤ val m) : weight x ≤ Real.exp (val m) := by
  unfold weight
  split
  · exact (Real.exp_pos _).le
  · rename_i h
    exact Real.exp_le_exp.mpr (hle (hx.resolve_right h))

/-- **C84.** -/
theorem softmax_runs (cpu : Cpu) (j : ExpLog.Lane) {scalar : F32.W → F32.W} (hsc : GoodExp scalar) {x out : Asm.Sl}
    (hlen : out.len = x.len) (hn : x.len ≤ 2 ^ 20) (hal : out.base % 4 = 0) (hap : Apart 4 x.len x.base out.base)
    (s : St F32.W) (hx : ∀ i < x.len, Score (s.mem (x.base + 4 * i)))
    (hfin : ∃ i < x.len, F32.Finite (s.mem (x.base + 4 * i))) :
    ∃ s', (∀ t, Runs cpu j scalar x out s t ↔ t = s') ∧ OnlyAt 4 out.base x.len s.mem s'.mem ∧
      ∀ i < x.len, F32.Finite (s'.mem (out.base + 4 * i)) ∧ 0 ≤ val (s'.mem (out.base + 4 * i)) ∧
        (s.mem (x.base + 4 * i) = negInf → val (s'.mem (out.base + 4 * i)) = 0) ∧
        |val (s'.mem (out.base + 4 * i)) - softmax x.len (fun k => s.mem (x.base + 4 * k)) i| ≤
          tol x.len * softmax x.len (fun k => s.mem (x.base + 4 * k)) i + (2 : ℝ) ^ (-124 : Int) := by
  -- the maximum
  obtain ⟨k, hk, hkf⟩ := hfin
  have hsc' : ∀ v ∈ elems 4 s.mem x.base x.len, Score v := fun v hv => by
    obtain ⟨i, hi, rfl⟩ := mem_elems.mp hv
    exact hx i hi
  obtain ⟨m, hm, hmem, hmf, hmax⟩ := max32_spec hsc' (mem_elems.mpr ⟨k, hk, rfl⟩) hkf
  obtain ⟨km, hkm, hxm⟩ := mem_elems.mp hmem
  have hle : ∀ i < x.len, F32.Finite (s.mem (x.base + 4 * i)) → val (s.mem (x.base + 4 * i)) ≤ val m :=
    fun i hi hf => hmax _ (mem_elems.mpr ⟨i, hi, rfl⟩) hf
  -- minus the maximum
  obtain ⟨s₁, hc₁, he₁, ho₁⟩ := addConst_kernel cpu .f32 (F32.alu divIeee) (c := flip m) (x := x) (y := out)
    (fun a => F32.add_comm' a (flip m)) hlen.ge (.inr hap) s
  have hd := elems_inj _ he₁
  -- the exponential
  obtain ⟨m₂, hex, hm₂, ho₂⟩ := exp_place cpu j scalar hal s₁.mem
  have hgood : ∀ i, GoodExp (if i < out.len / (expKernel cpu j).1 * (expKernel cpu j).1 then (expKernel cpu j).2 else scalar) := by
    intro i; split
    · exact good_kernel cpu j
    · exact hsc
  have he : ∀ i < x.len, F32.Finite (putWords s₁.mem m₂ (out.base + 4 * i)) ∧ 0 ≤ val (putWords s₁.mem m₂ (out.base + 4 * i)) ∧
      (s.mem (x.base + 4 * i) = negInf → val (putWords s₁.mem m₂ (out.base + 4 * i)) = 0) ∧
      |val (putWords s₁.mem m₂ (out.base + 4 * i)) - weight (s.mem (x.base + 4 * i)) / Real.exp (val m)| ≤
        α * (weight (s.mem (x.base + 4 * i)) / Real.exp (val m)) + (2 : ℝ) ^ (-125 : Int) := by
    intro i hi
    rw [hm₂ i (hlen ▸ hi), show s₁.mem (out.base + 4 * i) = addIeee (s.mem (x.base + 4 * i)) (flip m) from hd i hi]
    exact exp_step (hgood i) (hx i hi) hmf (hle i hi)
  have hwle : ∀ i < x.len, weight (s.mem (x.base + 4 * i)) ≤ Real.exp (val m) := fun i hi => weight_le (hx i hi) (hle i hi)
  have hbound : ∀ v ∈ elems 4 ({ s₁ with mem := putWords s₁.mem m₂ } : St F32.W).mem out.base out.len,
      F32.Finite v ∧ |val v| ≤ 2 := by
    intro v hv
    obtain ⟨i, hi, rfl⟩ := mem_elems.mp hv
    obtain ⟨e1, e2, -, e4⟩ := he i (hlen ▸ hi)
    refine ⟨e1, ?_⟩
    have h1 : weight (s.mem (x.base + 4 * i)) / Real.exp (val m) ≤ 1 :=
      (div_le_one (Real.exp_pos _)).mpr (hwle i (hlen ▸ hi))
    have h2 := (abs_le.mp e4).2
    have h3 : α * (weight (s.mem (x.base + 4 * i)) / Real.exp (val m)) ≤ 1 / 2 := by
      have : α * (weight (s.mem (x.base + 4 * i)) / Real.exp (val m)) ≤ α * 1 :=
        mul_le_mul_of_nonneg_left h1 (by unfold α; positivity)
      refine this.trans ?_
      unfold α; norm_num
    have h4 : (2 : ℝ) ^ (-125 : Int) ≤ 1 / 2 := by norm_num
    rw [abs_of_nonneg e2]
    linarith
  -- the sum
  obtain ⟨s₃, w, hc₃, hw, hmem₃, hwf, hws⟩ := sum_small divIeee cpu hal { s₁ with mem := putWords s₁.mem m₂ }
    (hlen ▸ hn.trans (by norm_num)) hbound
  rw [sum_elems, sum_elems, hlen] at hws
  have hfinal := normalise hn ⟨km, hkm, hxm⟩ hmf hwle he hwf hws
  -- the product
  obtain ⟨s₄, hc₄, he₄, ho₄⟩ := mulConst_kernel cpu .f32 (F32.alu divIeee) (c := divIeee 0x3f800000 w) (x := out) (y := out)
    (fun a => F32.mul_comm' a _) le_rfl (.inl rfl) s₃
  have ho := elems_inj _ he₄
  refine ⟨s₄, fun t => ⟨?_, ?_⟩, fun a ha => ?_, fun i hi => ?_⟩
  · rintro ⟨m', t₁, n₂, t₃, w', g1, g2, g3, g4, g5, g6⟩
    rw [hm] at g1; cases g1
    obtain rfl := (hc₁ t₁).mp g2
    rw [hex] at g3; cases g3
    obtain rfl := (hc₃ t₃).mp g4
    rw [hw] at g5; cases g5
    exact (hc₄ t).mp g6
  · rintro rfl
    exact ⟨m, s₁, m₂, s₃, w, hm, (hc₁ _).mpr rfl, hex, (hc₃ _).mpr rfl, hw, (hc₄ _).mpr rfl⟩
  · rw [ho₄ a (by rw [hlen]; exact ha), hmem₃]
    show putWords s₁.mem m₂ a = s.mem a
    rw [ho₂ a (by rw [hlen]; exact ha), ho₁ a ha]
  · have e : s₄.mem (out.base + 4 * i) = mulIeee (putWords s₁.mem m₂ (out.base + 4 * i)) (divIeee 0x3f800000 w) := by
      have := ho i (hlen ▸ hi)
      rw [hmem₃] at this
      exact this
    rw [e]
    exact hfinal i hi

/-- **C84: the outputs are nearly a distribution.** -/
theorem softmax_sum (cpu : Cpu) (j : ExpLog.Lane) {scalar : F32.W → F32.W} (hsc : GoodExp scalar) {x out : Asm.Sl}
    (hlen : out.len = x.len) (hn : x.len ≤ 2 ^ 20) (hal : out.base % 4 = 0) (hap : Apart 4 x.len x.base out.base)
    {s t : St F32.W} (hx : ∀ i < x.len, Score (s.mem (x.base + 4 * i)))
    (hfin : ∃ i < x.len, F32.Finite (s.mem (x.base + 4 * i))) (h : Runs cpu j scalar x out s t) :
    |∑ i ∈ Finset.range x.len, val (t.mem (out.base + 4 * i)) - 1| ≤ tol x.len + x.len * (2 : ℝ) ^ (-124 : Int) := by
  obtain ⟨s', h1, -, h2⟩ := softmax_runs cpu j hsc hlen hn hal hap s hx hfin
  obtain rfl := (h1 t).mp h
  have hw0 : ∀ z : F32.W, 0 ≤ weight z := fun z => by
    unfold weight; split
    · exact le_rfl
    · exact (Real.exp_pos _).le
  have hs : ∑ i ∈ Finset.range x.len, softmax x.len (fun k => s.mem (x.base + 4 * k)) i = 1 := by
    unfold softmax
    rw [← Finset.sum_div, div_self]
    obtain ⟨k, hk, hkf⟩ := hfin
    refine (lt_of_lt_of_le ?_ (Finset.single_le_sum (fun i _ => hw0 _) (Finset.mem_range.mpr hk))).ne'
    unfold weight
    have hne : s.mem (x.base + 4 * k) ≠ negInf := fun h => not_finite_inf.2 (h ▸ hkf)
    rw [if_neg hne]
    exact Real.exp_pos _
  calc _ = |∑ i ∈ Finset.range x.len, (val (t.mem (out.base + 4 * i)) - softmax x.len (fun k => s.mem (x.base + 4 * k)) i)| := by
        rw [Finset.sum_sub_distrib, hs]
    _ ≤ ∑ i ∈ Finset.range x.len, (tol x.len * softmax x.len (fun k => s.mem (x.base + 4 * k)) i + (2 : ℝ) ^ (-124 : Int)) :=
        (Finset.abs_sum_le_sum_abs _ _).trans (Finset.sum_le_sum fun i hi => (h2 i (Finset.mem_range.mp hi)).2.2.2)
    _ = _ := by
        rw [Finset.sum_add_distrib, ← Finset.mul_sum, hs]
        simp

/-- Three scores, one of them masked: the premises hold. -/
example (cpu : Cpu) (j : ExpLog.Lane) (r : Reg → Nat) (v : Nat → Nat → F32.W) :
    let s : St F32.W := { r := r, zf := true, lt := false, v := v,
                          mem := fun a => if a = 104 then negInf else if a = 108 then 0x7f7fffff else 0xc1200000, out := none }
    ∃ s', (∀ t, Runs cpu j (expKernel cpu j).2 ⟨100, 3⟩ ⟨200, 3⟩ s t ↔ t = s') ∧ val (s'.mem 204) = 0 := by
  intro s
  obtain ⟨s', h1, -, h2⟩ := softmax_runs cpu j (good_kernel cpu j) (x := ⟨100, 3⟩) (out := ⟨200, 3⟩) rfl (by norm_num) rfl
    (fun i j h1 h2 => by simp only at h1 h2 ⊢; omega) s
    (fun i hi => by
      have : i = 0 ∨ i = 1 ∨ i = 2 := by simp only at hi; omega
      rcases this with rfl | rfl | rfl
      · exact .inl (by show F32.Finite 0xc1200000; unfold F32.Finite; decide)
      · exact .inr rfl
      · exact .inl (by show F32.Finite 0x7f7fffff; unfold F32.Finite; decide))
    ⟨0, by norm_num, by show F32.Finite 0xc1200000; unfold F32.Finite; decide⟩
  exact ⟨s', h1, (h2 1 (by norm_num)).2.2.1 rfl⟩

end Verif.Softmax32
