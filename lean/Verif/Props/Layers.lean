import Verif.Model.Layers
import Verif.Props.Activations
import Verif.Props.Norm
import Verif.Props.Conv
import Verif.Props.MultiHead

set_option autoImplicit false
set_option linter.unusedSimpArgs false

/-!
# C53–C55: highway and squared-distance layers, MLP-Mixer, spatial gating unit and gMLP
-/

namespace Verif.Layers
open GradFn Dense Losses DerivedOps
open Finset (range)
open Norm (lnZ)

/-! ### Specification vocabulary -/

/-- A well-formed `r × c` matrix. -/
structure IsMat (w : Dense ℝ) (r c : Nat) : Prop where
  wf : w.WF
  rows : w.rows = r
  cols : w.cols = c

/-- The sequence of the `n` column vectors `X 0, …, X (n-1)` of size `d`. -/
noncomputable def seq (n d : Nat) (X : Nat → Nat → ℝ) : List (Dense ℝ) := (List.range n).map fun i => col d (X i)

/-- `W x + b`, `W` with `k` columns. -/
noncomputable def lin (w b : Dense ℝ) (k : Nat) (x : Nat → ℝ) (o : Nat) : ℝ := ∑ i ∈ range k, w.el o i * x i + b.val o

/-- Layer normalisation of a vector of size `d`. -/
noncomputable def lnorm (m : LN) (d : Nat) (x : Nat → ℝ) (j : Nat) : ℝ := lnZ d m.eps x j * m.w.val j + m.b.val j

/-- `W₂ f(W₁ x + b₁) + b₂`, `k` inputs and `h` hidden units. -/
noncomputable def ffn (m : FF) (k h : Nat) (f : ℝ → ℝ) (x : Nat → ℝ) : Nat → ℝ :=
  lin m.w2 m.b2 h fun i => f (lin m.w1 m.b1 k x i)

/-- `a` is an activation without parameters that applies `f` to every element. -/
def Applies (a : Act) (f : ℝ → ℝ) : Prop := arity a = 0 ∧ formula 0 0 a = some f

/-! ### Sequences -/

theorem IsMat.eq_col {b : Dense ℝ} {n : Nat} (h : IsMat b n 1) : b = col n b.val := by
  have := Verif.eq_col h.wf h.cols
  rw [h.rows] at this
  exact this

@[simp] theorem seq_length (n d : Nat) (X : Nat → Nat → ℝ) : (seq n d X).length = n := by simp [seq]

theorem seq_get {n d i : Nat} (X : Nat → Nat → ℝ) (h : i < n) : (seq n d X)[i]? = some (col d (X i)) := by
  simp [seq, List.getElem?_map, List.getElem?_range h]

theorem seq_congr {n d : Nat} {X Y : Nat → Nat → ℝ} (h : ∀ i < n, ∀ j < d, X i j = Y i j) : seq n d X = seq n d Y :=
  List.map_congr_left fun i hi => col_congr fun j hj => h i (List.mem_range.mp hi) j hj

theorem mapM_seq {f : Dense ℝ → Option (Dense ℝ)} {n d e : Nat} {X Y : Nat → Nat → ℝ}
    (h : ∀ i < n, f (col d (X i)) = some (col e (Y i))) : (seq n d X).mapM f = some (seq n e Y) := by
  unfold seq
  rw [List.mapM_map]
  exact MultiHead.mapM_range_some h

theorem mapM_seq_none {f : Dense ℝ → Option (Dense ℝ)} {n d : Nat} {X : Nat → Nat → ℝ} (hn : 0 < n)
    (h : f (col d (X 0)) = none) : (seq n d X).mapM f = none := by
  obtain ⟨m, rfl⟩ : ∃ m, n = m + 1 := ⟨n - 1, by omega⟩
  simp [seq, List.range_succ_eq_map, List.mapM_cons, h]

theorem affine_seq {w b : Dense ℝ} {r c : Nat} (hw : IsMat w r c) (hb : IsMat b r 1) (x : Nat → ℝ) :
    affine.forward [b, w, col c x] = some (col r (lin w b c x)) := by
  have := affine_col hw.wf b.val x
  rw [hw.rows, hw.cols, ← hb.eq_col] at this
  exact this

theorem affine_none {w b : Dense ℝ} {r c k : Nat} (hw : IsMat w r c) (hk : k ≠ c) (x : Nat → ℝ) :
    affine.forward [b, w, col k x] = none := by
  have : w.mul (col k x) = none := by
    rw [← Option.not_isSome_iff_eq_none, (mul_spec hw.wf (col_WF k x)).1]
    simp [hw.cols]
    omega
  simp only [affine, this, Option.bind_eq_bind, Option.bind_none]

theorem linears_seq {w b : Dense ℝ} {r c : Nat} (hw : IsMat w r c) (hb : IsMat b r 1) (n : Nat) (X : Nat → Nat → ℝ) :
    linears w b (seq n c X) = some (seq n r fun i => lin w b c (X i)) :=
  mapM_seq fun i _ => affine_seq hw hb (X i)

theorem ln_seq {m : LN} {d : Nat} (hw : IsMat m.w d 1) (hb : IsMat m.b d 1) (n : Nat) (X : Nat → Nat → ℝ) :
    m.forward (seq n d X) = some (seq n d fun i => lnorm m d (X i)) :=
  mapM_seq fun i _ => by
    have := Norm.layerNorm_eq d m.w.val m.b.val (X i) m.eps
    rw [← hw.eq_col, ← hb.eq_col] at this
    exact this

theorem act_seq {a : Act} {f : ℝ → ℝ} (h : Applies a f) (n d : Nat) (X : Nat → Nat → ℝ) :
    a.forward [] (seq n d X) = some (seq n d fun i j => f (X i j)) := by
  have h1 : a.forward [] (seq n d X) = a.forward [scalar 0, scalar 0] (seq n d X) := by
    have := h.1
    cases a <;> first | rfl | (exfalso; simp [arity] at this)
  rw [h1, forward_formula_partial h.2 (by
    rintro (rfl | rfl | rfl) <;> exact absurd h.1 (by simp [arity]))]
  simp [seq, col_map, Function.comp_def]

theorem act_missing {a : Act} (h : arity a ≠ 0) (x : Dense ℝ) (xs : List (Dense ℝ)) : a.forward [] (x :: xs) = none :=
  missing_params (by simp; omega) x xs

theorem ff_seq {m : FF} {k h o : Nat} (h1 : IsMat m.w1 h k) (h2 : IsMat m.b1 h 1) (h3 : IsMat m.w2 o h) (h4 : IsMat m.b2 o 1)
    {f : ℝ → ℝ} (hf : Applies m.act f) (n : Nat) (X : Nat → Nat → ℝ) :
    m.forward (seq n k X) = some (seq n o fun i => ffn m k h f (X i)) := by
  simp only [FF.forward, linears_seq h1 h2, act_seq hf, linears_seq h3 h4, Option.bind_eq_bind, Option.bind_some]
  rfl

theorem residual_seq (n d : Nat) (X Y : Nat → Nat → ℝ) :
    residual (seq n d X) (seq n d Y) = some (seq n d fun i j => X i j + Y i j) := by
  unfold residual map2
  rw [if_neg (by simp)]
  have : (seq n d X).zip (seq n d Y) = (List.range n).map fun i => (col d (X i), col d (Y i)) := by
    simp [seq, List.zip_map']
  rw [this, List.mapM_map]
  exact MultiHead.mapM_range_some fun i _ => add_col d (X i) (Y i)

/-! ### Highway -/

/-- **C53.** A highway layer of matching sizes computes `t·f(W x + b) + (1 − t)·x` with `t = σ(W_T x + b_T)`. -/
theorem highway_forward {m : Highway} {d : Nat} (h1 : IsMat m.wIn d d) (h2 : IsMat m.bIn d 1) (h3 : IsMat m.wT d d)
    (h4 : IsMat m.bT d 1) {f : ℝ → ℝ} (hf : Applies m.act f) (n : Nat) (X : Nat → Nat → ℝ) :
    m.forward (seq n d X) = some (seq n d fun i j =>
      let t := 1 / (1 + Real.exp (-(lin m.wT m.bT d (X i) j)))
      t * f (lin m.wIn m.bIn d (X i) j) + (1 - t) * X i j) := by
  refine mapM_seq fun i _ => ?_
  have ha : m.act.forward [] [col d (lin m.wIn m.bIn d (X i))] = some [col d fun j => f (lin m.wIn m.bIn d (X i) j)] := by
    simpa [seq] using act_seq hf 1 d fun _ => lin m.wIn m.bIn d (X i)
  simp only [Highway.step, affine_seq h3 h4, affine_seq h1 h2, ha, GradFn.sigmoid, elementwise_col, prod_col, add_col,
    reverseSubScalar_col, Option.bind_eq_bind, Option.bind_some, List.getElem?_cons_zero, sigmoidF, mul_neg_one]

/-- **C53.** Every element of the output of a highway layer lies between the input and the transformed input. -/
theorem highway_between {m : Highway} {d : Nat} (h1 : IsMat m.wIn d d) (h2 : IsMat m.bIn d 1) (h3 : IsMat m.wT d d)
    (h4 : IsMat m.bT d 1) {f : ℝ → ℝ} (hf : Applies m.act f) (x : Nat → ℝ) :
    ∃ y : Nat → ℝ, m.forward [col d x] = some [col d y] ∧ ∀ j,
      Min.min (x j) (f (lin m.wIn m.bIn d x j)) ≤ y j ∧ y j ≤ Max.max (x j) (f (lin m.wIn m.bIn d x j)) := by
  have h := highway_forward h1 h2 h3 h4 hf 1 fun _ => x
  refine ⟨_, by simpa [seq] using h, fun j => ?_⟩
  generalize f (lin m.wIn m.bIn d x j) = u
  have e := Real.exp_pos (-(lin m.wT m.bT d x j))
  have t0 : 0 < 1 / (1 + Real.exp (-(lin m.wT m.bT d x j))) := by positivity
  have t1 : 1 / (1 + Real.exp (-(lin m.wT m.bT d x j))) < 1 := by rw [div_lt_one (by positivity)]; linarith
  simp only [one_div] at *
  generalize (1 + Real.exp (-(lin m.wT m.bT d x j)))⁻¹ = t at *
  constructor
  · have a1 := min_le_left (x j) u
    have a2 := min_le_right (x j) u
    nlinarith
  · have a1 := le_max_left (x j) u
    have a2 := le_max_right (x j) u
    nlinarith

/-- **C53.** The squared-distance layer returns `‖B x‖²`, hence a number that is not negative, and 0 exactly when
`B x = 0`. -/
theorem sqrDist_forward {b : Dense ℝ} {r d : Nat} (hb : IsMat b r d) (n : Nat) (X : Nat → Nat → ℝ) :
    sqrDist b (seq n d X) = some ((List.range n).map fun i =>
      scalar (∑ o ∈ range r, (∑ k ∈ range d, b.el o k * X i k) ^ 2)) := by
  unfold sqrDist seq
  rw [List.mapM_map]
  refine MultiHead.mapM_range_some fun i _ => ?_
  have e1 : GradFn.mul.forward [b, col d (X i)] = some (col r fun o => ∑ k ∈ range d, b.el o k * X i k) := by
    have := mul_col hb.wf (X i)
    rw [hb.rows, hb.cols] at this
    exact this
  have e2 : transpose.forward [col r fun o => ∑ k ∈ range d, b.el o k * X i k] =
      some (mat2 1 r fun _ o => ∑ k ∈ range d, b.el o k * X i k) := by
    rw [col_eq_mat2]; exact mat2_T _ _ _
  have e3 : GradFn.mul.forward [mat2 1 r fun _ o => ∑ k ∈ range d, b.el o k * X i k,
      col r fun o => ∑ k ∈ range d, b.el o k * X i k] = some (scalar (∑ o ∈ range r, (∑ k ∈ range d, b.el o k * X i k) ^ 2)) := by
    rw [col_eq_mat2]
    refine (mat2_mul _ _ _ _ _).trans ?_
    rw [mat2_one_one]
    exact congrArg (fun v => some (scalar v)) (Finset.sum_congr rfl fun o _ => by ring)
  simp only [Function.comp, e1, e2, e3, Option.bind_eq_bind, Option.bind_some]

theorem sqrDist_zero_iff {b : Dense ℝ} (r d : Nat) (x : Nat → ℝ) :
    0 ≤ ∑ o ∈ range r, (∑ k ∈ range d, b.el o k * x k) ^ 2 ∧
    (∑ o ∈ range r, (∑ k ∈ range d, b.el o k * x k) ^ 2 = 0 ↔ ∀ o < r, ∑ k ∈ range d, b.el o k * x k = 0) := by
  refine ⟨Finset.sum_nonneg fun o _ => sq_nonneg _, ?_⟩
  rw [Finset.sum_eq_zero_iff_of_nonneg fun o _ => sq_nonneg _]
  simp

/-! ### MLP-Mixer -/

/-- The sizes of a mixer block for `n` channels and vectors of size `d`, `h` and `h'` hidden units (`mlpmixer.New`,
mixerblock.go:48-56). -/
structure Mixer.Shaped (m : Mixer) (n d h h' : Nat) : Prop where
  channels : m.channels = n
  tw : IsMat m.tokenNorm.w d 1
  tb : IsMat m.tokenNorm.b d 1
  t1 : IsMat m.tokenFF.w1 h n
  t2 : IsMat m.tokenFF.b1 h 1
  t3 : IsMat m.tokenFF.w2 n h
  t4 : IsMat m.tokenFF.b2 n 1
  cw : IsMat m.channelNorm.w d 1
  cb : IsMat m.channelNorm.b d 1
  c1 : IsMat m.channelFF.w1 h' d
  c2 : IsMat m.channelFF.b1 h' 1
  c3 : IsMat m.channelFF.w2 d h'
  c4 : IsMat m.channelFF.b2 d 1

/-- Token mixing: across the sequence, for every position of the vectors. -/
noncomputable def tokenSpec (m : Mixer) (n d h : Nat) (f : ℝ → ℝ) (X : Nat → Nat → ℝ) (i j : Nat) : ℝ :=
  ffn m.tokenFF n h f (fun t => lnorm m.tokenNorm d (X t) j) i + X i j

/-- Channel mixing: across each vector. -/
noncomputable def channelSpec (m : Mixer) (d h : Nat) (g : ℝ → ℝ) (U : Nat → Nat → ℝ) (i j : Nat) : ℝ :=
  ffn m.channelFF d h g (lnorm m.channelNorm d (U i)) j + U i j

theorem tokenMix_seq {m : Mixer} {n d h h' : Nat} (hm : m.Shaped n d h h') {f : ℝ → ℝ} (hf : Applies m.tokenFF.act f)
    (hn : 0 < n) (hd : 0 < d) (X : Nat → Nat → ℝ) : m.tokenMix (seq n d X) =
      some (seq n d fun i j => ffn m.tokenFF n h f (fun t => lnorm m.tokenNorm d (X t) j) i) := by
  have e1 := ln_seq hm.tw hm.tb n X
  have e2 : GradFn.stack.forward (seq n d fun i => lnorm m.tokenNorm d (X i)) = some (mat2 n d fun i => lnorm m.tokenNorm d (X i)) :=
    stack_cols hn _
  have e3 : colViews (mat2 n d fun i => lnorm m.tokenNorm d (X i)) = some (seq d n fun j t => lnorm m.tokenNorm d (X t) j) :=
    (views_eq _ _ _).2
  have e4 := ff_seq hm.t1 hm.t2 hm.t3 hm.t4 hf d fun j t => lnorm m.tokenNorm d (X t) j
  set Z : Nat → Nat → ℝ := fun j => ffn m.tokenFF n h f fun t => lnorm m.tokenNorm d (X t) j
  have e5 : GradFn.stack.forward (seq d n Z) = some (mat2 d n Z) := stack_cols hd _
  have e6 : transpose.forward [mat2 d n Z] = some (mat2 n d fun i j => Z j i) := mat2_T _ _ _
  have e7 := (views_eq n d fun i j => Z j i).1
  simp only [Mixer.tokenMix, e1, e2, e3, e4, e5, e6, e7, Option.bind_eq_bind, Option.bind_some]
  rw [List.mapM_map]
  refine MultiHead.mapM_range_some fun i _ => ?_
  refine (mat2_T 1 d fun _ j => Z j i).trans ?_
  rw [mat2_eq_col]

/-- **C54.** A mixer block on a sequence as long as its number of channels: token mixing across the sequence, then
channel mixing across each vector, each over layer-normalised inputs and with a residual connection. -/
theorem mixer_forward_partial {m : Mixer} {n d h h' : Nat} (hm : m.Shaped n d h h') {f g : ℝ → ℝ}
    (hf : Applies m.tokenFF.act f) (hg : Applies m.channelFF.act g) (hn : 0 < n) (hd : 0 < d) (X : Nat → Nat → ℝ) :
    m.forward (seq n d X) = some (seq n d (channelSpec m d h' g (tokenSpec m n d h f X))) := by
  have e1 := tokenMix_seq hm hf hn hd X
  have e2 := residual_seq n d (fun i j => ffn m.tokenFF n h f (fun t => lnorm m.tokenNorm d (X t) j) i) X
  have e3 := ln_seq hm.cw hm.cb n (tokenSpec m n d h f X)
  have e4 := ff_seq hm.c1 hm.c2 hm.c3 hm.c4 hg n fun i => lnorm m.channelNorm d (tokenSpec m n d h f X i)
  have e5 : m.channelMix (seq n d (tokenSpec m n d h f X)) =
      some (seq n d fun i => ffn m.channelFF d h' g (lnorm m.channelNorm d (tokenSpec m n d h f X i))) := by
    simp only [Mixer.channelMix, e3, e4, Option.bind_eq_bind, Option.bind_some]
  unfold Mixer.forward
  rw [if_neg (by rw [seq_length, hm.channels]; omega), e1]
  simp only [Option.bind_eq_bind, Option.bind_some, e2]
  change (m.channelMix (seq n d (tokenSpec m n d h f X))).bind (fun c => residual c (seq n d (tokenSpec m n d h f X))) = _
  rw [e5, Option.bind_some, residual_seq]
  rfl

/-- **C54, violated.** The block announces `Channels` as a *maximum* length, but every other length panics, shorter and
empty sequences included. -/
theorem mixer_length {m : Mixer} {n d h h' : Nat} (hm : m.Shaped n d h h') {k : Nat} (hk : k ≠ n) (X : Nat → Nat → ℝ) :
    m.forward (seq k d X) = none := by
  unfold Mixer.forward
  by_cases hl : ((seq k d X).length : Int) > m.channels
  · rw [if_pos hl]
  rw [if_neg hl]
  have : m.tokenMix (seq k d X) = none := by
    have e1 := ln_seq hm.tw hm.tb k X
    rcases Nat.eq_zero_or_pos k with rfl | hk0
    · simp only [Mixer.tokenMix, e1, Option.bind_eq_bind, Option.bind_some]
      rfl
    have e2 : GradFn.stack.forward (seq k d fun i => lnorm m.tokenNorm d (X i)) = some (mat2 k d fun i => lnorm m.tokenNorm d (X i)) :=
      stack_cols hk0 _
    have e3 : colViews (mat2 k d fun i => lnorm m.tokenNorm d (X i)) = some (seq d k fun j t => lnorm m.tokenNorm d (X t) j) :=
      (views_eq _ _ _).2
    rcases Nat.eq_zero_or_pos d with rfl | hd
    · have : m.tokenFF.forward (seq 0 k fun j t => lnorm m.tokenNorm 0 (X t) j) = none ∨
          m.tokenFF.forward (seq 0 k fun j t => lnorm m.tokenNorm 0 (X t) j) = some [] := by
        unfold FF.forward linears seq Act.forward
        cases m.tokenFF.act.fn [] <;> simp
      rcases this with h | h <;>
        simp only [Mixer.tokenMix, e1, e2, e3, h, Option.bind_eq_bind, Option.bind_some, Option.bind_none]
      rfl
    · have e4 : m.tokenFF.forward (seq d k fun j t => lnorm m.tokenNorm d (X t) j) = none := by
        unfold FF.forward linears
        rw [mapM_seq_none hd (affine_none hm.t1 hk _)]
        rfl
      simp only [Mixer.tokenMix, e1, e2, e3, e4, Option.bind_eq_bind, Option.bind_some, Option.bind_none]
  rw [this]
  rfl

/-- The sizes of the block in the test of the package: five channels, vectors of size 3, four hidden units; the
hypotheses can be met. -/
example : ∃ m : Mixer, m.Shaped 5 3 4 4 ∧ (∃ f, Applies m.tokenFF.act f) ∧ m.forward (seq 4 3 fun _ _ => 1) = none := by
  have hz : ∀ r c, IsMat (zeros r c : Dense ℝ) r c := fun r c => ⟨by simp [WF, zeros], rfl, rfl⟩
  let ff (k : Nat) : FF := ⟨zeros 4 k, zeros 4 1, .tanh, zeros k 4, zeros k 1⟩
  let ln : LN := ⟨zeros 3 1, zeros 3 1, 1⟩
  have hm : Mixer.Shaped ⟨5, ln, ff 5, ln, ff 3⟩ 5 3 4 4 := by constructor <;> first | rfl | exact hz _ _
  refine ⟨_, hm, ⟨_, rfl, rfl⟩, mixer_length hm (by omega) _⟩

/-! ### Spatial gating unit, gMLP -/

/-- The sizes of a spatial gating unit for sequences of length `n` and vectors of size `2 d` (`sgu.New`,
sgu/model.go:47-65). -/
structure SGU.Shaped (m : SGU) (n d : Nat) : Prop where
  dimSeq : m.dimSeq = n
  w : IsMat m.norm.w d 1
  b : IsMat m.norm.b d 1
  pw : IsMat m.projW n n
  pb : IsMat m.projB n 1

/-- The optional activation applies `f`. -/
def AppliesOpt (a : Option Act) (f : ℝ → ℝ) : Prop :=
  match a with
  | some a => Applies a f
  | none => f = id

/-- The gate: the second half of the vectors, normalised and mixed across the sequence. -/
noncomputable def sguSpec (m : SGU) (n d : Nat) (f : ℝ → ℝ) (X : Nat → Nat → ℝ) (i j : Nat) : ℝ :=
  f (lin m.projW m.projB n (fun t => lnorm m.norm d (fun q => X t (d + q)) j) i) * X i j

theorem slice_seq {n d : Nat} {a b : Nat} (ha : a < d) (hb : a + b ≤ d) {t : Int} (ht : t = a + b) (X : Nat → Nat → ℝ) :
    ((seq n d X).mapM fun x => (slice (a : Nat) 0 t 1).forward [x]) = some (seq n b fun i q => X i (a + q)) :=
  mapM_seq fun i _ => by
    rw [slice_fwd, col_eq_mat2, col_eq_mat2]
    exact mat2_slice (fun i' _ => X i i') ha (Nat.zero_lt_one) hb (Nat.le_refl _) ht (by simp)

theorem conv_seq {w b : Dense ℝ} {n d : Nat} (hn : 0 < n) (hw : IsMat w n n) (hb : IsMat b n 1) (X : Nat → Nat → ℝ) :
    Conv.conv1x1 w b n (seq n d X) = some (seq n d fun o j => lin w b n (fun t => X t j) o) := by
  have h := Conv.conv1x1_spec (xs := seq n d X) (L := d) hw.wf hb.wf (by rw [hb.rows, hw.rows]) hb.cols
    (by rw [← List.length_pos_iff]; simpa using hn) (by rw [hw.cols, seq_length]) (fun x hx => by
      obtain ⟨i, -, rfl⟩ := List.mem_map.mp hx
      exact ⟨Or.inr rfl, by simp⟩)
  rw [hw.rows] at h
  rw [h]
  refine congrArg some (List.map_congr_left fun o _ => ?_)
  rw [mat2_eq_col]
  refine col_congr fun j hj => ?_
  rw [seq_length]
  refine congrArg (· + b.val o) ?_
  refine Finset.sum_congr rfl fun t ht => ?_
  have ht := Finset.mem_range.mp ht
  rw [List.getD_eq_getElem?_getD, seq_get X ht, Option.getD_some, col_val _ hj]

theorem pairwise_seq {op : GradFn ℝ} {f : ℝ → ℝ → ℝ} (hop : ∀ d u v, op.forward [col d u, col d v] = some (col d fun i => f (u i) (v i)))
    (n d : Nat) (X Y : Nat → Nat → ℝ) :
    ((List.range (seq n d X).length).mapM fun (i : Nat) => do
      let g ← (seq n d X)[i]?
      let r ← (seq n d Y)[i]?
      op.forward [g, r]) = some (seq n d fun i j => f (X i j) (Y i j)) := by
  rw [seq_length]
  exact MultiHead.mapM_range_some fun i hi => by
    simp only [seq_get X hi, seq_get Y hi, Option.bind_eq_bind, Option.bind_some, hop]

/-- **C55.** The spatial gating unit on `n` vectors of size `2 d`. -/
theorem sgu_forward_partial {m : SGU} {n d : Nat} (hm : m.Shaped n d) {f : ℝ → ℝ} (hf : AppliesOpt m.act f) (hn : 0 < n)
    (hd : 0 < d) (X : Nat → Nat → ℝ) : m.forward (seq n (2 * d) X) = some (seq n d (sguSpec m n d f X)) := by
  have h0 : ∃ l, seq n (2 * d) X = col (2 * d) (X 0) :: l := by
    obtain ⟨k, rfl⟩ : ∃ k, n = k + 1 := ⟨n - 1, by omega⟩
    exact ⟨_, by unfold seq; rw [List.range_succ_eq_map]; rfl⟩
  obtain ⟨l, hl⟩ := h0
  have e1 := slice_seq (n := n) (a := 0) (b := d) (d := 2 * d) (t := (d : Int)) (by omega) (by omega) (by simp) X
  have e2 := slice_seq (n := n) (a := d) (b := d) (d := 2 * d) (t := ((2 * d : Nat) : Int)) (by omega) (by omega) (by push_cast; ring) X
  have e3 := ln_seq hm.w hm.b n fun i q => X i (d + q)
  have e4 := conv_seq (d := d) hn hm.pw hm.pb fun i => lnorm m.norm d fun q => X i (d + q)
  set G : Nat → Nat → ℝ := fun o j => lin m.projW m.projB n (fun t => lnorm m.norm d (fun q => X t (d + q)) j) o
  have e5 : optAct m.act (seq n d G) = some (seq n d fun i j => f (G i j)) := by
    unfold AppliesOpt at hf
    unfold optAct
    cases hA : m.act with
    | none => rw [hA] at hf; simp only at hf; subst hf; rfl
    | some a => rw [hA] at hf; exact act_seq hf n d G
  have e6 := pairwise_seq prod_col n d (fun i j => f (G i j)) fun i q => X i (0 + q)
  have hs : (col (2 * d) (X 0)).data.length = 2 * d := by simp
  have hh : 2 * d / 2 = d := by omega
  have : m.forward (seq n (2 * d) X) = (do
    let res ← (seq n (2 * d) X).mapM fun x => (slice ((0 : Nat) : Int) 0 (d : Int) 1).forward [x]
    let gate ← (seq n (2 * d) X).mapM fun x => (slice (d : Nat) 0 ((2 * d : Nat) : Int) 1).forward [x]
    let gate ← m.norm.forward gate
    let gate ← Conv.conv1x1 m.projW m.projB m.dimSeq gate
    let gate ← optAct m.act gate
    (List.range gate.length).mapM fun (i : Nat) => do
      let g ← gate[i]?
      let r ← res[i]?
      prod.forward [g, r]) := by
    conv_lhs => rw [hl]
    rw [hl]
    unfold SGU.forward
    simp only [hs, hh]
    rfl
  rw [this]
  simp only [e1, e2, e3, hm.dimSeq, e4, e5, Option.bind_eq_bind, Option.bind_some]
  refine e6.trans (congrArg some (seq_congr fun i _ j _ => ?_))
  rw [Nat.zero_add]
  rfl

/-- **C55.** The unit panics without input (`xs[0]`). -/
theorem sgu_empty (m : SGU) : m.forward [] = none := rfl

/-- **C55, violated.** `sgu.New` accepts an odd `Dim`, halving it downwards, but the second half of a vector of odd size
is one element longer than the normalisation: the unit panics for every input. -/
theorem sgu_odd {m : SGU} {n n' d : Nat} (hm : m.Shaped n' d) (X : Nat → Nat → ℝ) :
    m.forward (seq n (2 * d + 1) X) = none := by
  rcases Nat.eq_zero_or_pos n with rfl | hn
  · rfl
  obtain ⟨l, hl⟩ : ∃ l, seq n (2 * d + 1) X = col (2 * d + 1) (X 0) :: l := by
    obtain ⟨k, rfl⟩ : ∃ k, n = k + 1 := ⟨n - 1, by omega⟩
    exact ⟨_, by unfold seq; rw [List.range_succ_eq_map]; rfl⟩
  have e2 := slice_seq (n := n) (a := d) (b := d + 1) (d := 2 * d + 1) (t := ((2 * d + 1 : Nat) : Int)) (by omega) (by omega)
    (by push_cast; ring) X
  have e3 : m.norm.forward (seq n (d + 1) fun i q => X i (d + q)) = none := by
    refine mapM_seq_none hn ?_
    have hp : ∀ u : Nat → ℝ, prod.forward [col (d + 1) u, m.norm.w] = none := by
      intro u
      rw [hm.w.eq_col]
      exact zipOp_col_none _ _ _ (by omega)
    simp only [Norm.layerNorm, Norm.mean_col, subScalar_col, Norm.square_col, Norm.add_sc, Norm.sqrt_scalar, divScalar_col, hp,
      Option.bind_eq_bind, Option.bind_some, Option.bind_none]
  have hs : (col (2 * d + 1) (X 0)).data.length = 2 * d + 1 := by simp
  have hh : (2 * d + 1) / 2 = d := by omega
  rw [hl] at e2 ⊢
  unfold SGU.forward
  simp only [hs, hh, e2, e3, Option.bind_eq_bind, Option.bind_some, Option.bind_none]
  cases ((col (2 * d + 1) (X 0) :: l).mapM fun x => (slice 0 0 (d : Int) 1).forward [x]) <;> rfl

/-- The sizes of a layer of the gMLP: vectors of size `d`, `2 e` inner units, sequences of length `n` (`gmlp.New`,
gmlp/model.go:43-62). -/
structure GLayer.Shaped (m : GLayer) (n d e : Nat) : Prop where
  nw : IsMat m.norm.w d 1
  nb : IsMat m.norm.b d 1
  w1 : IsMat m.w1 (2 * e) d
  b1 : IsMat m.b1 (2 * e) 1
  sgu : m.sgu.Shaped n e
  w2 : IsMat m.w2 d e
  b2 : IsMat m.b2 d 1

/-- The approximation of GELU the library documents. -/
noncomputable def geluS (x : ℝ) : ℝ := 0.5 * x * (1 + Real.tanh (Real.sqrt (2 / Real.pi) * (x + 0.044715 * x ^ 3)))

/-- One layer of the gMLP. -/
noncomputable def gSpec (m : GLayer) (n d e : Nat) (f : ℝ → ℝ) (X : Nat → Nat → ℝ) (i j : Nat) : ℝ :=
  lin m.w2 m.b2 e (sguSpec m.sgu n e f (fun t q => geluS (lin m.w1 m.b1 d (lnorm m.norm d (X t)) q)) i) j + X i j

theorem gLayer_forward {m : GLayer} {n d e : Nat} (hm : m.Shaped n d e) {f : ℝ → ℝ} (hf : AppliesOpt m.sgu.act f)
    (hn : 0 < n) (he : 0 < e) (X : Nat → Nat → ℝ) : m.forward (seq n d X) = some (seq n d (gSpec m n d e f X)) := by
  have e1 := ln_seq hm.nw hm.nb n X
  have e2 := linears_seq hm.w1 hm.b1 n fun t => lnorm m.norm d (X t)
  have e3 := act_seq (a := .gelu) (f := geluS) ⟨rfl, rfl⟩ n (2 * e) fun t => lin m.w1 m.b1 d (lnorm m.norm d (X t))
  have e4 := sgu_forward_partial hm.sgu hf hn he fun t q => geluS (lin m.w1 m.b1 d (lnorm m.norm d (X t)) q)
  have e5 := linears_seq hm.w2 hm.b2 n (sguSpec m.sgu n e f fun t q => geluS (lin m.w1 m.b1 d (lnorm m.norm d (X t)) q))
  unfold GLayer.forward GLayer.block
  simp only [e1, e2, e3, e4, e5, Option.bind_eq_bind, Option.bind_some]
  exact pairwise_seq add_col n d _ X

/-- The whole model: the layers one after the other. -/
noncomputable def gmlpSpec (n d e : Nat) (f : ℝ → ℝ) (layers : List GLayer) (X : Nat → Nat → ℝ) : Nat → Nat → ℝ :=
  layers.foldl (fun Y l => gSpec l n d e f Y) X

theorem layers_forward {n d e : Nat} {f : ℝ → ℝ} (hn : 0 < n) (he : 0 < e) : ∀ (layers : List GLayer)
    (_ : ∀ l ∈ layers, l.Shaped n d e ∧ AppliesOpt l.sgu.act f) (X : Nat → Nat → ℝ),
    layers.foldlM (fun ys l => l.forward ys) (seq n d X) = some (seq n d (gmlpSpec n d e f layers X))
  | [], _, X => rfl
  | l :: layers, h, X => by
    rw [List.foldlM_cons, gLayer_forward (h l (by simp)).1 (h l (by simp)).2 hn he]
    exact layers_forward hn he layers (fun l' hl => h l' (by simp [hl])) _

theorem pad_seq {k n d : Nat} (hk : k ≤ n) (X : Nat → Nat → ℝ) :
    pad (seq k d X) (n : Int) (fun _ => some (zeros d 1)) = some (seq n d fun i j => if i < k then X i j else 0) := by
  obtain ⟨h1, h2⟩ := pad_spec (seq k d X) (n : Int) fun _ => zeros d 1
  obtain ⟨ys, hy⟩ := Option.isSome_iff_exists.mp (h1.mpr (by omega))
  rw [hy]
  obtain ⟨h3, h4⟩ := h2 ys hy
  refine congrArg some (List.ext_getElem? fun i => ?_)
  by_cases hi : i < n
  · rw [h4 i (by omega), seq_get _ hi, List.getD_eq_getElem?_getD]
    by_cases hik : i < k
    · rw [seq_get _ hik]
      simp [hik]
    · rw [List.getElem?_eq_none (by simp; omega)]
      refine congrArg some ?_
      simp only [hik, if_false, Option.getD_none]
      refine (IsMat.eq_col ⟨by simp [WF, zeros], rfl, rfl⟩).trans (col_congr fun j hj => ?_)
      have hj : j < d := hj
      simp [val, zeros, hj]
  · rw [List.getElem?_eq_none (by omega), List.getElem?_eq_none (by simp; omega)]

/-- **C55.** The gMLP pads its input with zero vectors to `SeqLen` and applies its layers: the result always has
`SeqLen` vectors, also for shorter inputs. -/
theorem gmlp_forward_partial {m : GMLP} {n e : Nat} {f : ℝ → ℝ} (hs : m.seqLen = n) (he : 0 < e)
    (hl : ∀ l ∈ m.layers, l.Shaped n m.dim e ∧ AppliesOpt l.sgu.act f) {k : Nat} (hk0 : 0 < k) (hk : k ≤ n)
    (X : Nat → Nat → ℝ) : m.forward (seq k m.dim X) =
      some (seq n m.dim (gmlpSpec n m.dim e f m.layers fun i j => if i < k then X i j else 0)) := by
  unfold GMLP.forward
  rw [if_neg (by rw [seq_length, hs]; omega), if_neg (by rw [seq_length]; omega), hs, pad_seq hk]
  exact layers_forward (by omega) he m.layers hl _

/-- **C55.** Padding is the same as appending zero vectors. -/
theorem gmlp_padding {m : GMLP} {n e : Nat} {f : ℝ → ℝ} (hs : m.seqLen = n) (he : 0 < e)
    (hl : ∀ l ∈ m.layers, l.Shaped n m.dim e ∧ AppliesOpt l.sgu.act f) {k : Nat} (hk0 : 0 < k) (hk : k ≤ n)
    (X : Nat → Nat → ℝ) : m.forward (seq k m.dim X ++ List.replicate (n - k) (zeros m.dim 1)) = m.forward (seq k m.dim X) := by
  have h := pad_seq (d := m.dim) hk X
  have e1 : seq k m.dim X ++ List.replicate (n - k) (zeros m.dim 1) = seq n m.dim fun i j => if i < k then X i j else 0 := by
    unfold pad at h
    by_cases hkn : k = n
    · subst hkn
      rw [if_pos (by simp)] at h
      rw [← Option.some.inj h]; simp
    · rw [if_neg (by simp; omega), if_neg (by simp; omega), GradFn.mapM_some _ fun _ _ => rfl] at h
      rw [← Option.some.inj h]
      simp
  rw [e1, gmlp_forward_partial hs he hl hk0 hk, gmlp_forward_partial hs he hl (by omega) (Nat.le_refl n)]
  refine congrArg some ?_
  congr 2
  funext i j
  split <;> simp_all <;> omega

/-- **C55.** Without input the gMLP returns nothing, and it panics for sequences that are too long. -/
theorem gmlp_bounds {m : GMLP} {xs : List (Dense ℝ)} :
    ((xs.length : Int) > m.seqLen → m.forward xs = none) ∧ (0 ≤ m.seqLen → m.forward [] = some []) := by
  constructor
  · intro h; rw [GMLP.forward, if_pos h]
  · intro h; rw [GMLP.forward, if_neg (by simpa using h)]; rfl

/-- A gMLP of one layer for three vectors of size 2 (four inner units) meets the hypotheses and returns three vectors
for one. -/
example : ∃ m : GMLP, m.layers.length = 1 ∧ ∃ ys, m.forward (seq 1 2 fun _ j => j) = some ys ∧ ys.length = 3 := by
  have hz : ∀ r c, IsMat (zeros r c : Dense ℝ) r c := fun r c => ⟨by simp [WF, zeros], rfl, rfl⟩
  let l : GLayer := ⟨⟨zeros 2 1, zeros 2 1, 1⟩, zeros 4 2, zeros 4 1,
    ⟨3, ⟨zeros 2 1, zeros 2 1, 1⟩, zeros 3 3, zeros 3 1, none⟩, zeros 2 2, zeros 2 1⟩
  have hl : l.Shaped 3 2 2 := ⟨hz _ _, hz _ _, hz _ _, hz _ _, ⟨rfl, hz _ _, hz _ _, hz _ _, hz _ _⟩, hz _ _, hz _ _⟩
  refine ⟨⟨2, 3, [l]⟩, rfl, _, gmlp_forward_partial (n := 3) (e := 2) (f := id) rfl (by omega) (fun l' h => ?_) (by omega) (by omega) _, by simp⟩
  obtain rfl : l' = l := by simpa using h
  exact ⟨hl, rfl⟩

/-- A highway layer for vectors of size 2 meets the hypotheses. -/
example : ∃ (m : Highway) (f : ℝ → ℝ), Applies m.act f ∧ (m.forward (seq 3 2 fun i j => i + j)).isSome := by
  have hz : ∀ r c, IsMat (zeros r c : Dense ℝ) r c := fun r c => ⟨by simp [WF, zeros], rfl, rfl⟩
  refine ⟨⟨zeros 2 2, zeros 2 1, zeros 2 2, zeros 2 1, .relu⟩, _, ⟨rfl, rfl⟩, ?_⟩
  rw [highway_forward (hz _ _) (hz _ _) (hz _ _) (hz _ _) ⟨rfl, rfl⟩]
  rfl

end Verif.Layers
