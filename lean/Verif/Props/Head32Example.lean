import Verif.Props.Multi32
import Verif.Props.Att32Example

set_option autoImplicit false
set_option linter.unusedSimpArgs false

/-!
# C92: an example

A head of one number whose layers are the identity.
-/

namespace Verif.Head32.Example
open Verif.F32 Verif.Asm Verif.Spec Verif.Net32 Verif.Spec.Net32 Verif.Rec32 Verif.Spec.Rec32 Verif.Att32 Verif.Spec.Att32 Verif.Spec.Head32

def one : Lin := ⟨1, 1, [Net32.Example.p1], [0]⟩
def hd : Head := ⟨one, one, one, Net32.Example.p1, true, false⟩

theorem normOne : Net32.norm one.rows one.cols one.w = 1 := by
  simp [one, Net32.norm, largest, at2, Finset.sum_range_succ, List.range_succ, Net32.Example.v1]

theorem biasOne : bias one.rows one.b = 0 := by simp [one, bias, largest, List.range_succ, Net32.Example.v0]

theorem topOne : top one.rows one.cols one.w one.b 1 = 1 + dotErr 1 1 1 := by
  unfold top; rw [normOne, biasOne]; simp [one]

theorem magOne : mag one 1 = 1 := by unfold mag; rw [normOne, biasOne]; norm_num

theorem errOne : linErr one 1 ≤ 1 / 2 ^ 22 := by
  unfold linErr; rw [normOne, topOne]; change dotErr 1 1 1 + _ ≤ _; unfold dotErr; norm_num

theorem errOne0 : 0 ≤ linErr one 1 := linErr_nonneg (by norm_num)

theorem fitsOne : LinFits one 1 where
  w := rfl
  b := rfl
  wv := fun v hv => Net32.Example.fin v (by revert hv; simp [one]; tauto)
  bv := fun v hv => (Net32.Example.fin v (by revert hv; simp [one]; tauto)).1
  c20 := by decide
  x50 := by norm_num
  top := by rw [topOne]; unfold dotErr maxFin; norm_num

theorem topHead : mag one 1 + linErr one 1 ≤ 2 := by rw [magOne]; linarith [errOne, show (1 : ℝ) / 2 ^ 22 ≤ 1 by norm_num]

theorem topHead0 : 0 ≤ mag one 1 + linErr one 1 := by rw [magOne]; linarith [errOne0]

/-- A bound for the products of keys and query. -/
theorem dotTop_le {a b : ℝ} (ha : 0 ≤ a) (ha' : a ≤ 2) (hb : 0 ≤ b) (hb' : b ≤ 2) : dotTop 1 a b ≤ 5 := by
  unfold dotTop dotErr
  have h1 : a * b ≤ 2 * 2 := mul_le_mul ha' hb' hb (by norm_num)
  have h2 : (a + (1 : Nat) / 2 ^ 63) * (b + 1 / 2 ^ 63) ≤ (2 + (1 : Nat) / 2 ^ 63) * (2 + 1 / 2 ^ 63) := by gcongr
  have h3 : ((1 : Nat) : ℝ) / 2 ^ 23 * ((a + (1 : Nat) / 2 ^ 63) * (b + 1 / 2 ^ 63)) ≤
      ((1 : Nat) : ℝ) / 2 ^ 23 * ((2 + (1 : Nat) / 2 ^ 63) * (2 + 1 / 2 ^ 63)) := by gcongr
  have h4 : ((1 : Nat) : ℝ) / 2 ^ 23 * ((2 + (1 : Nat) / 2 ^ 63) * (2 + 1 / 2 ^ 63)) ≤ (1 : ℝ) := by norm_num
  linarith

theorem fits : Spec.Head32.Fits hd 1000 1 where
  x0 := by norm_num
  query := fitsOne
  key := fitsOne
  value := fitsOne
  same := rfl
  cols := rfl
  n20 := by norm_num
  d20 := by decide
  k50 := topHead.trans (by norm_num)
  q50 := topHead.trans (by norm_num)
  v120 := topHead.trans (by norm_num)
  c := by unfold F32.Finite; decide
  top := by
    change |val Net32.Example.p1| * dotTop 1 (((1 : Nat) : ℝ) * (mag one 1 + linErr one 1)) (mag one 1 + linErr one 1) ≤ maxFin
    rw [Net32.Example.v1, Nat.cast_one, one_mul, abs_one, one_mul]
    refine (dotTop_le topHead0 topHead topHead0 topHead).trans ?_
    unfold maxFin; norm_num

/-- Up to a thousand ones, decoded one at a time with the cache or all at once. -/
example (cpu : Cpu) (j : ExpLog.Lane) (n : Nat) (h0 : 0 < n) (hn : n ≤ 1000) : ∃ (lib : Lib) (outs : List (List (List F32.W × List F32.W)))
    (out : List (List F32.W × List F32.W)) (C : Cache),
    Session ⟨cpu, j, lib⟩ hd none (single (List.replicate n [Net32.Example.p1])) outs ∧
    Forward ⟨cpu, j, lib⟩ hd none (List.replicate n [Net32.Example.p1]) (List.replicate n [Net32.Example.p1]) out C ∧
    ∀ t < n, ∃ w z w' z', outs[t]? = some [(w, z)] ∧ out[t]? = some (w', z') ∧ |val (z.getD 0 0) - val (z'.getD 0 0)| ≤ 2 * headErr hd 1000 1 := by
  obtain ⟨⟨outs, ho⟩, ⟨out, C, hf⟩, h⟩ := decode_agrees (M := ⟨cpu, j, ⟨(Softmax32.expKernel cpu j).2, id⟩⟩) (Softmax32.good_kernel cpu j) fits rfl rfl
    (xs := List.replicate n [Net32.Example.p1])
    (fun x hx => by rw [List.eq_of_mem_replicate hx]; exact ⟨Att32.Example.one_within, Att32.Example.one_within⟩)
    (by simpa using hn) (by intro h; have := congrArg List.length h; simp at this; omega)
  obtain ⟨-, -, g⟩ := h outs out C ho hf
  refine ⟨_, outs, out, C, ho, hf, fun t ht => ?_⟩
  obtain ⟨w, z, w', z', e1, e2, -, -, e3⟩ := g t (by simpa using ht)
  exact ⟨w, z, w', z', e1, e2, (e3 0 (by decide)).2.2⟩

/-- The bound is small. -/
theorem err : headErr hd 1000 1 ≤ 1 / 2 ^ 9 := by
  have hA := topHead
  have hA0 := topHead0
  have hE := errOne
  have hE0 := errOne0
  unfold headErr scoreMove keyTop queryTop valueTop
  change attErr 1000 1 (val Net32.Example.p1) (((1 : Nat) : ℝ) * (mag one 1 + linErr one 1)) (mag one 1 + linErr one 1) (mag one 1 + linErr one 1) +
    (Real.exp (2 * (|val Net32.Example.p1| * (((1 : Nat) : ℝ) * (mag one 1 + linErr one 1) * linErr one 1 + ((1 : Nat) : ℝ) * linErr one 1 * mag one 1))) - 1) *
      mag one 1 + linErr one 1 ≤ _
  rw [Net32.Example.v1, abs_one, Nat.cast_one, one_mul, one_mul, one_mul]
  generalize hT : mag one 1 + linErr one 1 = T at hA hA0 ⊢
  rw [magOne, mul_one, mul_one]
  generalize linErr one 1 = e at hE hE0
  have hexp : ∀ x : ℝ, x ≤ 1 / 2 ^ 18 → Real.exp x ≤ 1 + 1 / 2 ^ 17 := fun x hx =>
    (Real.exp_le_exp.mpr hx).trans ((Real.exp_bound_div_one_sub_of_interval (by norm_num) (by norm_num)).trans (by norm_num))
  have h1 : T * e ≤ 2 * (1 / 2 ^ 22) := mul_le_mul hA hE hE0 (by norm_num)
  have hx1 := hexp (2 * (T * e + e)) (by linarith [show 2 * (2 * (1 / 2 ^ 22) + (1 : ℝ) / 2 ^ 22) ≤ 1 / 2 ^ 18 by norm_num])
  have hd : dotErr 1 T T ≤ 1 / 2 ^ 20 := by
    unfold dotErr
    have h2 : (T + (1 : Nat) / 2 ^ 63) * (T + 1 / 2 ^ 63) ≤ (2 + (1 : Nat) / 2 ^ 63) * (2 + 1 / 2 ^ 63) := by gcongr
    have h3 : ((1 : Nat) : ℝ) / 2 ^ 23 * ((T + (1 : Nat) / 2 ^ 63) * (T + 1 / 2 ^ 63)) ≤
      ((1 : Nat) : ℝ) / 2 ^ 23 * ((2 + (1 : Nat) / 2 ^ 63) * (2 + 1 / 2 ^ 63)) := by gcongr
    exact h3.trans (by norm_num)
  have hx2 := hexp (2 * scoreErr 1 1 T T) (by
    unfold scoreErr
    rw [abs_one, one_mul, one_mul]
    have := dotTop_le hA0 hA hA0 hA
    have h5 : (dotTop 1 T T + (2 : ℝ) ^ (-126 : Int)) / 2 ^ 24 ≤ (5 + (2 : ℝ) ^ (-126 : Int)) / 2 ^ 24 := by gcongr
    have h6 : 2 * (1 / 2 ^ 20 + (5 + (2 : ℝ) ^ (-126 : Int)) / 2 ^ 24) ≤ 1 / 2 ^ 18 := by norm_num
    linarith)
  have hw : weightErr 1000 1 1 T T ≤ 1 / 2 ^ 17 + (1 / 2 ^ 16 + 1000 / 2 ^ 23) + 1000 * (2 : ℝ) ^ (-124 : Int) := by
    unfold weightErr Softmax32.tol; push_cast; linarith
  have hw0 : (0 : ℝ) ≤ 1 / 2 ^ 17 + (1 / 2 ^ 16 + 1000 / 2 ^ 23) + 1000 * (2 : ℝ) ^ (-124 : Int) := by positivity
  have ha : attErr 1000 1 1 T T T ≤ 2 * (1 / 2 ^ 17 + (1 / 2 ^ 16 + 1000 / 2 ^ 23) + 1000 * (2 : ℝ) ^ (-124 : Int)) +
      ((1000 : Nat) : ℝ) * (5 * (2 + (2 : ℝ) ^ (-126 : Int)) / 2 ^ 24) := by
    unfold attErr
    refine add_le_add ((mul_le_mul_of_nonneg_left hw hA0).trans (mul_le_mul_of_nonneg_right hA hw0)) ?_
    gcongr
  have hfin : 2 * (1 / 2 ^ 17 + (1 / 2 ^ 16 + 1000 / 2 ^ 23) + 1000 * (2 : ℝ) ^ (-124 : Int)) +
      ((1000 : Nat) : ℝ) * (5 * (2 + (2 : ℝ) ^ (-126 : Int)) / 2 ^ 24) + 1 / 2 ^ 17 + 1 / 2 ^ 22 ≤ 1 / 2 ^ 9 := by norm_num
  linarith

/-- Two such heads, whose results are added up. -/
def both : Multi := ⟨[hd, hd], ⟨1, 2, [Net32.Example.p1, Net32.Example.p1], [0]⟩⟩

theorem normBoth : Net32.norm both.merge.rows both.merge.cols both.merge.w = 2 := by
  simp [both, Net32.norm, largest, at2, Finset.sum_range_succ, List.range_succ, Net32.Example.v1]; norm_num

theorem biasBoth : bias both.merge.rows both.merge.b = 0 := by simp [both, bias, largest, List.range_succ, Net32.Example.v0]

theorem fitsBoth : MultiFits both false true 1000 1 1 (1 / 2 ^ 9) where
  some := by simp [both]
  fits := fun H hH => by obtain rfl : H = hd := by simpa [both] using hH
                         exact fits
  kind := fun H hH => by obtain rfl : H = hd := by simpa [both] using hH
                         exact ⟨rfl, rfl⟩
  err := fun H hH => by obtain rfl : H = hd := by simpa [both] using hH
                        exact err
  mag := fun H hH => by obtain rfl : H = hd := by simpa [both] using hH
                        exact magOne.le
  width := rfl
  merge := {
    w := rfl
    b := rfl
    wv := fun v hv => Net32.Example.fin v (by revert hv; simp [both]; tauto)
    bv := fun v hv => (Net32.Example.fin v (by revert hv; simp [both]; tauto)).1
    c20 := by decide
    x50 := by norm_num
    top := by unfold top dotErr; rw [normBoth, biasBoth]; unfold maxFin; norm_num [both] }

/-- Two heads, three ones. -/
example (cpu : Cpu) (j : ExpLog.Lane) : ∃ (lib : Lib) (yss : List (List (List F32.W))) (ys : List (List F32.W)) (Cs : List Cache),
    MultiSession ⟨cpu, j, lib⟩ both [] (single (List.replicate 3 [Net32.Example.p1])) yss ∧
    MultiForward ⟨cpu, j, lib⟩ both [] (List.replicate 3 [Net32.Example.p1]) (List.replicate 3 [Net32.Example.p1]) ys Cs ∧
    ∀ t < 3, ∃ y y', yss[t]? = some [y] ∧ ys[t]? = some y' ∧ |val (y.getD 0 0) - val (y'.getD 0 0)| ≤ 1 / 2 ^ 6 := by
  obtain ⟨⟨yss, ho⟩, ⟨ys, Cs, hf⟩, h⟩ := multi_decode (M := ⟨cpu, j, ⟨(Softmax32.expKernel cpu j).2, id⟩⟩) (Softmax32.good_kernel cpu j) fitsBoth
    (by norm_num) (by norm_num) (by norm_num) (xs := List.replicate 3 [Net32.Example.p1])
    (fun H hH x hx => by
      obtain rfl : H = hd := by simpa [both] using hH
      rw [List.eq_of_mem_replicate hx]; exact ⟨Att32.Example.one_within, Att32.Example.one_within⟩)
    (by norm_num) (by simp)
  obtain ⟨-, -, g⟩ := h yss ys Cs ho hf
  refine ⟨_, yss, ys, Cs, ho, hf, fun t ht => ?_⟩
  obtain ⟨y, y', e1, e2, -, -, e3⟩ := g t (by simpa using ht)
  refine ⟨y, y', e1, e2, (e3 0 (by decide)).2.2.trans ?_⟩
  unfold multiErr linErr top
  rw [normBoth, biasBoth]
  unfold dotErr
  norm_num [both]

end Verif.Head32.Example
