/-
C62: comparison of matrices.
-/
import Verif.Model.FloatSlice
set_option autoImplicit false
set_option linter.unusedSimpArgs false

namespace Verif.FloatSlice

variable {K : Floats}

/-- What the theorems use of IEEE 754; `le64`, `nan64` are the comparison `≤` and the test for NaN
of 64-bit numbers. -/
structure Ieee (K : Floats) (le64 : K.F64 → K.F64 → Bool) (nan64 : K.F64 → Bool) : Prop where
  /-- a comparison with NaN is false -/
  gt_nan : ∀ x y, nan64 x = true ∨ nan64 y = true → K.gt64 x y = false
  le_nan : ∀ x y, nan64 x = true ∨ nan64 y = true → le64 x y = false
  /-- otherwise the order is total -/
  gt_le : ∀ x y, nan64 x = false → nan64 y = false → K.gt64 x y = !le64 x y
  /-- equality is symmetric, and a number equal to a 32-bit number is converted to it -/
  eq32_symm : ∀ x y, K.eq32 x y = K.eq32 y x
  eq64_symm : ∀ x y, K.eq64 x y = K.eq64 y x
  down_eq : ∀ (x : K.F32) (y : K.F64), K.eq64 y (K.up x) = true → K.eq32 x (K.down y) = true

theorem eqLoop_iff {F : Type} (eq : F → F → Bool) (a b : List F) (h : a.length = b.length) :
    eqLoop eq a b = true ↔ ∀ i (ha : i < a.length) (hb : i < b.length), eq a[i] b[i] = true := by
  induction a generalizing b with
  | nil => simp [eqLoop]
  | cons v a ih =>
    cases b with
    | nil => simp at h
    | cons w b =>
      simp only [List.length_cons, Nat.add_right_cancel_iff] at h
      unfold eqLoop
      by_cases hv : eq v w = true
      · rw [if_neg (by simp [hv]), ih b h]
        constructor
        · intro g i ha hb
          cases i with
          | zero => exact hv
          | succ i => exact g i (by simpa using ha) (by simpa using hb)
        · intro g i ha hb
          exact g (i + 1) (by simpa using ha) (by simpa using hb)
      · rw [if_pos (by simpa using hv)]
        simp only [Bool.false_eq_true, false_iff]
        intro g
        exact hv (g 0 (by simp) (by simp))

theorem deltaLoop_iff {F : Type} (d : F → F → K.F64) (delta : K.F64) (a b : List F)
    (h : a.length = b.length) :
    deltaLoop K d delta a b = true ↔
      ∀ i (ha : i < a.length) (hb : i < b.length), K.gt64 (d a[i] b[i]) delta = false := by
  induction a generalizing b with
  | nil => simp [deltaLoop]
  | cons v a ih =>
    cases b with
    | nil => simp at h
    | cons w b =>
      simp only [List.length_cons, Nat.add_right_cancel_iff] at h
      unfold deltaLoop
      by_cases hv : K.gt64 (d v w) delta = true
      · rw [if_pos hv]
        simp only [Bool.false_eq_true, false_iff]
        intro g
        have := g 0 (by simp) (by simp)
        simp only [List.getElem_cons_zero] at this
        rw [hv] at this; exact absurd this (by decide)
      · rw [if_neg hv, ih b h]
        constructor
        · intro g i ha hb
          cases i with
          | zero => exact Bool.eq_false_iff.mpr hv
          | succ i => exact g i (by simpa using ha) (by simpa using hb)
        · intro g i ha hb
          exact g (i + 1) (by simpa using ha) (by simpa using hb)

theorem f32_length (a : Slice K) : a.f32.length = a.len := by cases a <;> simp [Slice.f32, Slice.len]
theorem f64_length (a : Slice K) : a.f64.length = a.len := by cases a <;> simp [Slice.f64, Slice.len]

/-- `Equals` of a 32-bit slice: same length and equal elements after rounding the other slice. -/
theorem equals32_iff (l : List K.F32) (b : Slice K) :
    (Slice.s32 l).equals b = true ↔ ∃ h : l.length = b.len,
      ∀ i (hi : i < l.length), K.eq32 l[i] (b.f32[i]'(by rw [f32_length, ← h]; exact hi)) = true := by
  unfold Slice.equals
  by_cases h : l.length = b.len
  · rw [if_neg (by simpa [Slice.len] using h)]
    by_cases h0 : b.len = 0
    · rw [if_pos (by simp [h0])]
      simp only [true_iff]
      exact ⟨h, fun i hi => by omega⟩
    · rw [if_neg (by simp [h0])]
      simp only
      rw [eqLoop_iff _ _ _ (by rw [f32_length, h])]
      exact ⟨fun g => ⟨h, fun i hi => g i hi _⟩, fun ⟨_, g⟩ i ha hb => g i ha⟩
  · rw [if_pos (by simpa [Slice.len] using h)]
    simp [h]

/-- `Equals` of a 64-bit slice. -/
theorem equals64_iff (l : List K.F64) (b : Slice K) :
    (Slice.s64 l).equals b = true ↔ ∃ h : l.length = b.len,
      ∀ i (hi : i < l.length), K.eq64 l[i] (b.f64[i]'(by rw [f64_length, ← h]; exact hi)) = true := by
  unfold Slice.equals
  by_cases h : l.length = b.len
  · rw [if_neg (by simpa [Slice.len] using h)]
    by_cases h0 : b.len = 0
    · rw [if_pos (by simp [h0])]
      simp only [true_iff]
      exact ⟨h, fun i hi => by omega⟩
    · rw [if_neg (by simp [h0])]
      simp only
      rw [eqLoop_iff _ _ _ (by rw [f64_length, h])]
      exact ⟨fun g => ⟨h, fun i hi => g i hi _⟩, fun ⟨_, g⟩ i ha hb => g i ha⟩
  · rw [if_pos (by simpa [Slice.len] using h)]
    simp [h]

theorem inDelta32_iff (l : List K.F32) (b : Slice K) (delta : K.F64) :
    (Slice.s32 l).inDelta b delta = true ↔ ∃ h : l.length = b.len, ∀ i (hi : i < l.length),
      K.gt64 (dist32 K l[i] (b.f32[i]'(by rw [f32_length, ← h]; exact hi))) delta = false := by
  unfold Slice.inDelta
  by_cases h : l.length = b.len
  · rw [if_neg (by simpa [Slice.len] using h)]
    by_cases h0 : b.len = 0
    · rw [if_pos (by simp [h0])]
      simp only [true_iff]
      exact ⟨h, fun i hi => by omega⟩
    · rw [if_neg (by simp [h0])]
      simp only
      rw [deltaLoop_iff _ _ _ _ (by rw [f32_length, h])]
      exact ⟨fun g => ⟨h, fun i hi => g i hi _⟩, fun ⟨_, g⟩ i ha hb => g i ha⟩
  · rw [if_pos (by simpa [Slice.len] using h)]
    simp [h]

theorem inDelta64_iff (l : List K.F64) (b : Slice K) (delta : K.F64) :
    (Slice.s64 l).inDelta b delta = true ↔ ∃ h : l.length = b.len, ∀ i (hi : i < l.length),
      K.gt64 (dist64 K l[i] (b.f64[i]'(by rw [f64_length, ← h]; exact hi))) delta = false := by
  unfold Slice.inDelta
  by_cases h : l.length = b.len
  · rw [if_neg (by simpa [Slice.len] using h)]
    by_cases h0 : b.len = 0
    · rw [if_pos (by simp [h0])]
      simp only [true_iff]
      exact ⟨h, fun i hi => by omega⟩
    · rw [if_neg (by simp [h0])]
      simp only
      rw [deltaLoop_iff _ _ _ _ (by rw [f64_length, h])]
      exact ⟨fun g => ⟨h, fun i hi => g i hi _⟩, fun ⟨_, g⟩ i ha hb => g i ha⟩
  · rw [if_pos (by simpa [Slice.len] using h)]
    simp [h]

section
variable {le64 : K.F64 → K.F64 → Bool} {nan64 : K.F64 → Bool}

/-- `Equal` is symmetric for matrices of the same type. -/
theorem equal_symm_partial (I : Ieee K le64 nan64) (a b : Mat K)
    (ht : a.data.bitSize = b.data.bitSize) : a.equal b = b.equal a := by
  obtain ⟨sa, da⟩ := a
  obtain ⟨sb, db⟩ := b
  unfold Mat.equal
  rw [show (sa == sb) = (sb == sa) from Bool.beq_comm]
  congr 1
  cases da with
  | s32 l =>
    cases db with
    | s32 l' =>
      rw [Bool.eq_iff_iff, equals32_iff, equals32_iff]
      constructor
      · rintro ⟨h, g⟩
        exact ⟨h.symm, fun i hi => by rw [I.eq32_symm]; exact g i (by simp only [Slice.len] at h; omega)⟩
      · rintro ⟨h, g⟩
        exact ⟨h.symm, fun i hi => by rw [I.eq32_symm]; exact g i (by simp only [Slice.len] at h; omega)⟩
    | s64 l' => simp [Slice.bitSize] at ht
  | s64 l =>
    cases db with
    | s32 l' => simp [Slice.bitSize] at ht
    | s64 l' =>
      rw [Bool.eq_iff_iff, equals64_iff, equals64_iff]
      constructor
      · rintro ⟨h, g⟩
        exact ⟨h.symm, fun i hi => by rw [I.eq64_symm]; exact g i (by simp only [Slice.len] at h; omega)⟩
      · rintro ⟨h, g⟩
        exact ⟨h.symm, fun i hi => by rw [I.eq64_symm]; exact g i (by simp only [Slice.len] at h; omega)⟩

/-- A 64-bit matrix that calls itself equal to a 32-bit one is called equal by it. -/
theorem equal_up (I : Ieee K le64 nan64) (sh sh' : List Nat) (l : List K.F64) (l' : List K.F32)
    (h : Mat.equal ⟨sh, .s64 l⟩ ⟨sh', .s32 l'⟩ = true) :
    Mat.equal ⟨sh', .s32 l'⟩ ⟨sh, .s64 l⟩ = true := by
  unfold Mat.equal at h ⊢
  rw [Bool.and_eq_true] at h ⊢
  refine ⟨by rw [Bool.beq_comm]; exact h.1, ?_⟩
  obtain ⟨hl, g⟩ := (equals64_iff _ _).mp h.2
  simp only [Slice.len] at hl
  refine (equals32_iff _ _).mpr ⟨by simp only [Slice.len]; omega, fun i hi => ?_⟩
  have := g i (by omega)
  simp only [Slice.f64, List.getElem_map] at this
  simp only [Slice.f32, List.getElem_map]
  exact I.down_eq _ _ this

/-- **`Equal` is not symmetric.**  Every 64-bit number that is not a 32-bit number gives two
matrices of any shape of which only one is equal to the other. -/
theorem equal_not_symm (y : K.F64) (h1 : K.eq32 (K.down y) (K.down y) = true)
    (h2 : K.eq64 y (K.up (K.down y)) = false) (shape : List Nat) (n : Nat) (hn : 0 < n) :
    Mat.equal ⟨shape, .s32 (List.replicate n (K.down y))⟩ ⟨shape, .s64 (List.replicate n y)⟩ = true ∧
    Mat.equal ⟨shape, .s64 (List.replicate n y)⟩ ⟨shape, .s32 (List.replicate n (K.down y))⟩ = false := by
  constructor
  · unfold Mat.equal
    rw [Bool.and_eq_true]
    refine ⟨by simp, (equals32_iff _ _).mpr ⟨by simp [Slice.len], fun i hi => ?_⟩⟩
    simpa [Slice.f32] using h1
  · unfold Mat.equal
    rw [Bool.and_eq_false_iff]
    right
    rw [Bool.eq_false_iff]
    intro h
    obtain ⟨hl, g⟩ := (equals64_iff _ _).mp h
    have := g 0 (by simpa using hn)
    simp [Slice.f64, h2] at this

/-- `InDelta` says what it should when no difference is a NaN. -/
theorem inDelta_spec_partial (I : Ieee K le64 nan64) (l : List K.F64) (b : Slice K) (delta : K.F64)
    (hd : nan64 delta = false) (hl : l.length = b.len)
    (hn : ∀ i (hi : i < l.length),
      nan64 (K.abs64 (K.sub64 l[i] (b.f64[i]'(by rw [f64_length, ← hl]; exact hi)))) = false) :
    (Slice.s64 l).inDelta b delta = true ↔ ∀ i (hi : i < l.length),
      le64 (K.abs64 (K.sub64 l[i] (b.f64[i]'(by rw [f64_length, ← hl]; exact hi)))) delta = true := by
  rw [inDelta64_iff]
  constructor
  · rintro ⟨_, g⟩ i hi
    have := g i hi
    unfold dist64 at this
    rw [I.gt_le _ _ (hn i hi) hd] at this
    simpa using this
  · intro g
    refine ⟨hl, fun i hi => ?_⟩
    unfold dist64
    rw [I.gt_le _ _ (hn i hi) hd, g i hi]; rfl

/-- The same for 32-bit slices; the difference is taken in 32 bits. -/
theorem inDelta_spec32_partial (I : Ieee K le64 nan64) (l : List K.F32) (b : Slice K) (delta : K.F64)
    (hd : nan64 delta = false) (hl : l.length = b.len)
    (hn : ∀ i (hi : i < l.length),
      nan64 (K.abs64 (K.up (K.sub32 l[i] (b.f32[i]'(by rw [f32_length, ← hl]; exact hi))))) = false) :
    (Slice.s32 l).inDelta b delta = true ↔ ∀ i (hi : i < l.length),
      le64 (K.abs64 (K.up (K.sub32 l[i] (b.f32[i]'(by rw [f32_length, ← hl]; exact hi))))) delta = true := by
  rw [inDelta32_iff]
  constructor
  · rintro ⟨_, g⟩ i hi
    have := g i hi
    unfold dist32 at this
    rw [I.gt_le _ _ (hn i hi) hd] at this
    simpa using this
  · intro g
    refine ⟨hl, fun i hi => ?_⟩
    unfold dist32
    rw [I.gt_le _ _ (hn i hi) hd, g i hi]; rfl

/-- **A NaN is within delta of everything.**  If the difference of two 64-bit numbers is a NaN, as it
is when one of them is a NaN, then matrices filled with them are called within `delta` for every
`delta`, although no element is. -/
theorem inDelta_nan (I : Ieee K le64 nan64) (x y : K.F64) (h : nan64 (K.abs64 (K.sub64 x y)) = true)
    (delta : K.F64) (shape : List Nat) (n : Nat) :
    Mat.inDelta ⟨shape, .s64 (List.replicate n x)⟩ ⟨shape, .s64 (List.replicate n y)⟩ delta = true ∧
    le64 (K.abs64 (K.sub64 x y)) delta = false := by
  refine ⟨?_, I.le_nan _ _ (.inl h)⟩
  unfold Mat.inDelta
  rw [Bool.and_eq_true]
  refine ⟨by simp, (inDelta64_iff _ _ _).mpr ⟨by simp [Slice.len], fun i hi => ?_⟩⟩
  simp only [Slice.f64, List.getElem_replicate]
  exact I.gt_nan _ _ (.inl h)

/-- The same for 32-bit numbers. -/
theorem inDelta_nan32 (I : Ieee K le64 nan64) (x y : K.F32) (h : nan64 (K.abs64 (K.up (K.sub32 x y))) = true)
    (delta : K.F64) (shape : List Nat) (n : Nat) :
    Mat.inDelta ⟨shape, .s32 (List.replicate n x)⟩ ⟨shape, .s32 (List.replicate n y)⟩ delta = true ∧
    le64 (K.abs64 (K.up (K.sub32 x y))) delta = false := by
  refine ⟨?_, I.le_nan _ _ (.inl h)⟩
  unfold Mat.inDelta
  rw [Bool.and_eq_true]
  refine ⟨by simp, (inDelta32_iff _ _ _).mpr ⟨by simp [Slice.len], fun i hi => ?_⟩⟩
  simp only [Slice.f32, List.getElem_replicate]
  exact I.gt_nan _ _ (.inl h)

/-- Matrices of different shapes are neither equal nor close. -/
theorem shape_differs (a b : Mat K) (delta : K.F64) (h : a.shape ≠ b.shape) :
    a.equal b = false ∧ a.inDelta b delta = false := by
  simp [Mat.equal, Mat.inDelta, h]

/-- Different lengths are never equal or close. -/
theorem length_differs (a b : Slice K) (delta : K.F64) (h : a.len ≠ b.len) :
    a.equals b = false ∧ a.inDelta b delta = false := by
  unfold Slice.equals Slice.inDelta
  rw [if_pos (by simpa using h), if_pos (by simpa using h)]
  exact ⟨rfl, rfl⟩

end

/-- Numbers with a NaN: 64-bit ones count halves, 32-bit ones count wholes. -/
def toy : Floats where
  F32 := Option Int
  F64 := Option Int
  up := Option.map (2 * ·)
  down := Option.map (· / 2)
  eq32 := fun x y => x.isSome && x == y
  eq64 := fun x y => x.isSome && x == y
  sub32 := fun x y => x.bind fun a => y.map fun b => a - b
  sub64 := fun x y => x.bind fun a => y.map fun b => a - b
  abs64 := Option.map fun a => (a.natAbs : Int)
  gt64 := fun x y => x.any fun a => y.any fun b => b < a

def toyLe (x y : Option Int) : Bool := x.any fun a => y.any fun b => a ≤ b

theorem toy_ieee : Ieee toy toyLe Option.isNone where
  gt_nan := by rintro (_ | x) (_ | y) h <;> simp [toy] at h ⊢
  le_nan := by rintro (_ | x) (_ | y) h <;> simp [toyLe] at h ⊢
  gt_le := by
    rintro (_ | x) (_ | y) h h' <;> simp [toy, toyLe] at h h' ⊢
    rw [Bool.eq_iff_iff]; simp
  eq32_symm := by
    rintro (_ | x) (_ | y) <;> simp [toy]
    exact Bool.beq_comm
  eq64_symm := by
    rintro (_ | x) (_ | y) <;> simp [toy]
    exact Bool.beq_comm
  down_eq := by
    rintro (_ | x) (_ | y) h <;> simp [toy] at h ⊢
    omega

example : toy.eq32 (toy.down (some 3)) (toy.down (some 3)) = true ∧
    toy.eq64 (some 3) (toy.up (toy.down (some 3))) = false ∧
    Option.isNone (toy.abs64 (toy.sub64 none (some 5))) = true := by decide

end Verif.FloatSlice
