import Mathlib.Analysis.Calculus.Deriv.Basic
import Mathlib.Analysis.Calculus.TangentCone.Real

set_option autoImplicit false

/-! Derivatives of functions that are given piecewise. -/

namespace Verif.Kink
open Set Filter
open scoped Topology

theorem on_open {f l : ℝ → ℝ} {a v : ℝ} {s : Set ℝ} (hs : IsOpen s) (hv : v ∈ s) (h : ∀ u ∈ s, f u = l u)
    (hl : HasDerivAt l a v) : HasDerivAt f a v :=
  hl.congr_of_eventuallyEq (by filter_upwards [hs.mem_nhds hv] with u hu using h u hu)

theorem below {f l : ℝ → ℝ} {a v c : ℝ} (hv : v < c) (h : ∀ u < c, f u = l u)
    (hl : HasDerivAt l a v) : HasDerivAt f a v := on_open isOpen_Iio hv h hl

theorem above {f l : ℝ → ℝ} {a v c : ℝ} (hv : c < v) (h : ∀ u > c, f u = l u)
    (hl : HasDerivAt l a v) : HasDerivAt f a v := on_open isOpen_Ioi hv h hl

theorem between {f l : ℝ → ℝ} {a v c d : ℝ} (hc : c < v) (hd : v < d) (h : ∀ u, c < u → u < d → f u = l u)
    (hl : HasDerivAt l a v) : HasDerivAt f a v := on_open isOpen_Ioo ⟨hc, hd⟩ (fun u hu => h u hu.1 hu.2) hl

/-- If `f` is differentiable at `v` and coincides with `r` just above `v`, it has the derivative of `r`. -/
theorem right {f r : ℝ → ℝ} {b v c : ℝ} (hc : v < c) (h : ∀ u, v < u → u < c → f u = r u)
    (hr : HasDerivAt r b v) (hf : DifferentiableAt ℝ f v) : HasDerivAt f b v := by
  have ev : ∀ᶠ u in 𝓝[>] v, f u = r u := by
    filter_upwards [Ioo_mem_nhdsGT hc] with u hu using h u hu.1 hu.2
  have e : f v = r v := by
    have t1 : Tendsto f (𝓝[>] v) (𝓝 (f v)) := hf.continuousAt.tendsto.mono_left nhdsWithin_le_nhds
    have t2 : Tendsto f (𝓝[>] v) (𝓝 (r v)) :=
      (hr.continuousAt.tendsto.mono_left nhdsWithin_le_nhds).congr'
        (by filter_upwards [ev] with u hu using hu.symm)
    exact tendsto_nhds_unique t1 t2
  have h1 := hf.hasDerivAt.hasDerivWithinAt (s := Ioi v)
  have h2 : HasDerivWithinAt f b (Ioi v) v := hr.hasDerivWithinAt.congr_of_eventuallyEq ev e
  rw [← (uniqueDiffWithinAt_Ioi v).eq_deriv _ h1 h2]
  exact hf.hasDerivAt

/-- The same below `v`. -/
theorem left {f l : ℝ → ℝ} {a v c : ℝ} (hc : c < v) (h : ∀ u, c < u → u < v → f u = l u)
    (hl : HasDerivAt l a v) (hf : DifferentiableAt ℝ f v) : HasDerivAt f a v := by
  have ev : ∀ᶠ u in 𝓝[<] v, f u = l u := by
    filter_upwards [Ioo_mem_nhdsLT hc] with u hu using h u hu.1 hu.2
  have e : f v = l v := by
    have t1 : Tendsto f (𝓝[<] v) (𝓝 (f v)) := hf.continuousAt.tendsto.mono_left nhdsWithin_le_nhds
    have t2 : Tendsto f (𝓝[<] v) (𝓝 (l v)) :=
      (hl.continuousAt.tendsto.mono_left nhdsWithin_le_nhds).congr'
        (by filter_upwards [ev] with u hu using hu.symm)
    exact tendsto_nhds_unique t1 t2
  have h1 := hf.hasDerivAt.hasDerivWithinAt (s := Iio v)
  have h2 : HasDerivWithinAt f a (Iio v) v := hl.hasDerivWithinAt.congr_of_eventuallyEq ev e
  rw [← (uniqueDiffWithinAt_Iio v).eq_deriv _ h1 h2]
  exact hf.hasDerivAt

/-- Different derivatives on both sides: not differentiable. -/
theorem not_diff {f l r : ℝ → ℝ} {a b v c d : ℝ} (hc : c < v) (hd : v < d)
    (h : ∀ u, c < u → u < v → f u = l u) (h' : ∀ u, v < u → u < d → f u = r u)
    (hl : HasDerivAt l a v) (hr : HasDerivAt r b v) (hab : a ≠ b) : ¬ DifferentiableAt ℝ f v :=
  fun hf => hab ((left hc h hl hf).unique (right hd h' hr hf))

/-- Equal derivatives on both sides. -/
theorem join {f l r : ℝ → ℝ} {a v : ℝ} (h : ∀ u ≤ v, f u = l u) (h' : ∀ u ≥ v, f u = r u)
    (hl : HasDerivAt l a v) (hr : HasDerivAt r a v) : HasDerivAt f a v := by
  have h1 : HasDerivWithinAt f a (Iic v) v := hl.hasDerivWithinAt.congr (fun u hu => h u hu) (h v le_rfl)
  have h2 : HasDerivWithinAt f a (Ici v) v := hr.hasDerivWithinAt.congr (fun u hu => h' u hu) (h' v le_rfl)
  have := h1.union h2
  rwa [Iic_union_Ici, hasDerivWithinAt_univ] at this

end Verif.Kink
