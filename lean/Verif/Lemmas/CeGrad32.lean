import Verif.Spec.CeGrad32
import Verif.Lemmas.Back32
import Verif.Props.CrossEntropy32
import Verif.Props.Sigmoid32
import Verif.Props.Opt32Sgd
import Verif.Lemmas.Norm32Sum

set_option autoImplicit false
set_option linter.unusedSimpArgs false

/-!
# The steps of the backward pass of the cross entropy (C97)
-/

namespace Verif.CeGrad32
open Verif.F32 Verif.Asm Verif.Spec Verif.Spec.Kernels Verif.Spec.Softmax32 Verif.Softmax32 Verif.CrossEntropy32 Verif.Net32 Verif.Rec32 Verif.Att32
  Verif.Norm32 Verif.Back32 Verif.Spec.CeGrad32

theorem one_val : val one = 1 := by unfold one; simp [val, unpack]; norm_num
theorem one_fin : F32.Finite one := by unfold one F32.Finite; decide
theorem minus_val : val minusOne = -1 := by unfold minusOne; simp [val, unpack]; norm_num
theorem minus_fin : F32.Finite minusOne := by unfold minusOne F32.Finite; decide

theorem prod1_iff (a b z : F32.W) : Prod [a] [b] [z] ↔ z = mulIeee a b := by
  unfold Rec32.Prod; simp

theorem addIn1_iff (cpu : Cpu) (a b z : F32.W) : AddIn cpu [a] [b] [z] ↔ z = addIeee a b := by
  rw [addIn_iff]; simp

/-- Multiplying by 1. -/
theorem mul_one_val {x : F32.W} (hx : F32.Finite x) : F32.Finite (mulIeee x one) ∧ val (mulIeee x one) = val x := by
  obtain ⟨e1, e2⟩ := finite_exact hx
  have := mul_near hx one_fin (by rw [one_val, mul_one]; exact e2)
  rw [one_val, mul_one] at this
  exact ⟨this.1.1, this.2 e1⟩

/-- The function that computes element `i` of `n` exponentials. -/
def expAt (cpu : Cpu) (j : ExpLog.Lane) (exp : F32.W → F32.W) (n i : Nat) : F32.W → F32.W :=
  if i < n / (expKernel cpu j).1 * (expKernel cpu j).1 then (expKernel cpu j).2 else exp

theorem expAt_good (cpu : Cpu) (j : ExpLog.Lane) {exp : F32.W → F32.W} (h : GoodExp exp) (n i : Nat) : GoodExp (expAt cpu j exp n i) := by
  unfold expAt; split
  · exact good_kernel cpu j
  · exact h

theorem elems_getD {m : Nat → F32.W} {p n i : Nat} (hi : i < n) : (elems 4 m p n).getD i 0 = m (p + 4 * i) := by
  unfold elems
  rw [List.getD_eq_getElem _ _ (by simpa using hi)]
  simp

theorem expNew_ok {cpu : Cpu} {j : ExpLog.Lane} {exp : F32.W → F32.W} {x z : List F32.W} (h : ExpNew cpu j exp x z) :
    z.length = x.length ∧ ∀ i < x.length, z.getD i 0 = expAt cpu j exp x.length i (x.getD i 0) := by
  obtain ⟨p, q, m, m₂, hp, hq, ha, he, hm, rfl⟩ := h
  obtain ⟨m', h1, h2, -⟩ := exp_between cpu j exp (x := ⟨p, x.length⟩) (y := ⟨q, x.length⟩) hp hq le_rfl ha m
  rw [hm] at h1; cases h1
  refine ⟨by simp [elems], fun i hi => ?_⟩
  rw [elems_getD hi, h2 i hi, elems_get he hi]
  rfl

theorem expNew_exists (cpu : Cpu) (j : ExpLog.Lane) (exp : F32.W → F32.W) (x : List F32.W) : ∃ z, ExpNew cpu j exp x z := by
  have ha : Apart 4 x.length 0 (4 * x.length) := by unfold Apart; omega
  obtain ⟨m', h1, -⟩ := exp_between cpu j exp (x := ⟨0, x.length⟩) (y := ⟨4 * x.length, x.length⟩) (by norm_num) (Nat.mul_mod_right 4 _) le_rfl
    ha (memOf x [])
  exact ⟨_, 0, 4 * x.length, memOf x [], m', by norm_num, Nat.mul_mod_right 4 _, ha, memOf_fst x [], h1, rfl⟩

/-- The sum of small numbers. -/
theorem sum1_small {cpu : Cpu} {x : List F32.W} {w : F32.W} (h : Sum1 cpu x w) (hn : x.length ≤ 2 ^ 20)
    (hx : ∀ i < x.length, F32.Finite (x.getD i 0) ∧ |val (x.getD i 0)| ≤ 2) :
    F32.Finite w ∧ |val w - ∑ i ∈ Finset.range x.length, val (x.getD i 0)| ≤
      growth Asm.ulp (x.length - 1) * ∑ i ∈ Finset.range x.length, (|val (x.getD i 0)| + Asm.tiny) := by
  obtain ⟨p, s, t, hp, he, hc, ho⟩ := h
  have hm : ∀ v ∈ elems 4 s.mem p x.length, F32.Finite v ∧ |val v| ≤ 2 := by
    intro v hv
    obtain ⟨i, hi, rfl⟩ := mem_elems.mp hv
    rw [elems_get he hi]; exact hx i hi
  obtain ⟨s', w', h1, h2, -, h4, h5⟩ := sum_small divIeee cpu (x := ⟨p, x.length⟩) hp s (hn.trans (by norm_num)) hm
  obtain rfl := (h1 t).mp hc
  rw [h2] at ho; cases ho
  rw [sum_elems, sum_elems] at h5
  refine ⟨h4, ?_⟩
  rw [Finset.sum_congr rfl fun i hi => by rw [← elems_get he (Finset.mem_range.mp hi)],
    Finset.sum_congr (s₂ := Finset.range x.length) (f := fun i => |val (x.getD i 0)| + Asm.tiny) rfl
      fun i hi => by rw [← elems_get he (Finset.mem_range.mp hi)]]
  exact h5

theorem oneHot_get {n k i : Nat} (v : F32.W) (hi : i < n) : (oneHot n k v).getD i 0 = if i = k then v else 0 := by
  unfold oneHot
  rw [List.getD_eq_getElem _ _ (by simpa using hi), List.getElem_set]
  by_cases h : k = i
  · subst h; simp
  · rw [if_neg h, if_neg fun h' => h h'.symm]; simp

theorem oneHot_length (n k : Nat) (v : F32.W) : (oneHot n k v).length = n := by simp [oneHot]

/-- Adding three numbers up to 2. -/
theorem add3 {a b c : F32.W} (ha : F32.Finite a ∧ |val a| ≤ 2) (hb : F32.Finite b ∧ |val b| ≤ 2) (hc : F32.Finite c ∧ |val c| ≤ 2) :
    F32.Finite (addIeee (addIeee a b) c) ∧ |val (addIeee (addIeee a b) c) - (val a + val b + val c)| ≤ 11 / 2 ^ 24 := by
  obtain ⟨fa, ba⟩ := ha
  obtain ⟨fb, bb⟩ := hb
  obtain ⟨fc, bc⟩ := hc
  have h1 : |val a + val b| ≤ 4 := (abs_add_le _ _).trans (by linarith)
  obtain ⟨f1, e1⟩ := Opt32.add_in fa fb h1 (by norm_num)
  have h2 : |val (addIeee a b) + val c| ≤ 7 := by
    have := abs_sub_abs_le_abs_sub (val (addIeee a b)) (val a + val b)
    have := abs_add_le (val (addIeee a b)) (val c)
    have : (4 : ℝ) / 2 ^ 24 ≤ 1 := by norm_num
    linarith
  obtain ⟨f2, e2⟩ := Opt32.add_in f1 fc h2 (by norm_num)
  refine ⟨f2, ?_⟩
  have e : val (addIeee (addIeee a b) c) - (val a + val b + val c) =
    (val (addIeee (addIeee a b) c) - (val (addIeee a b) + val c)) + (val (addIeee a b) - (val a + val b)) := by ring
  rw [e]
  refine (abs_add_le _ _).trans ((add_le_add e2 e1).trans ?_)
  norm_num

/-- Accumulating three gradients. -/
theorem acc3_ok {cpu : Cpu} {A B C g : List F32.W} {n : Nat} (h : Acc3 cpu [A, B, C] g) (hl : ∀ l ∈ [A, B, C], l.length = n)
    (hf : ∀ l ∈ [A, B, C], ∀ i < n, F32.Finite (l.getD i 0) ∧ |val (l.getD i 0)| ≤ 2) :
    g.length = n ∧ ∀ i < n, F32.Finite (g.getD i 0) ∧
      |val (g.getD i 0) - (val (A.getD i 0) + val (B.getD i 0) + val (C.getD i 0))| ≤ 11 / 2 ^ 24 := by
  obtain ⟨a, b, c, h, hp, h1, h2⟩ := h
  rw [addIn_iff] at h1 h2
  obtain ⟨h1, rfl⟩ := h1
  obtain ⟨h2, rfl⟩ := h2
  have ma := hp.mem_iff.mp (show a ∈ [a, b, c] by simp)
  have mb := hp.mem_iff.mp (show b ∈ [a, b, c] by simp)
  have mc := hp.mem_iff.mp (show c ∈ [a, b, c] by simp)
  have la := hl a ma
  have lb := hl b mb
  have lc := hl c mc
  refine ⟨by simp [la, lb, lc], fun i hi => ?_⟩
  have hsum := (hp.map fun l => val (l.getD i 0)).sum_eq
  simp only [List.map_cons, List.map_nil, List.sum_cons, List.sum_nil, add_zero] at hsum
  rw [getD_zip (n := n) (by simp [la, lb]) lc hi, getD_zip la lb hi]
  obtain ⟨f, e⟩ := add3 (hf a ma i hi) (hf b mb i hi) (hf c mc i hi)
  refine ⟨f, ?_⟩
  rw [add_assoc, ← hsum, ← add_assoc]
  exact e

theorem acc3_exists (cpu : Cpu) {A B C : List F32.W} {n : Nat} (ha : A.length = n) (hb : B.length = n) (hc : C.length = n) :
    ∃ g, Acc3 cpu [A, B, C] g :=
  ⟨_, A, B, C, _, List.Perm.refl _, (addIn_iff ..).mpr ⟨by rw [ha, hb], rfl⟩, (addIn_iff ..).mpr ⟨by simp [ha, hb, hc], rfl⟩⟩

end Verif.CeGrad32
