import Verif.Spec.Network
import Verif.Props.RecordNets
import Verif.Props.Recurrent
import Verif.Props.BiRNN
import Verif.Props.Norm
import Verif.Lemmas.Mat2Ops

set_option autoImplicit false
set_option linter.unusedSimpArgs false

/-!
# The recorded layers compute the functions of Spec/Network.lean
-/

namespace Verif.Record
open GradFn Backward Tape Dense
open scoped BigOperators

variable {s : Prop} {θ : Nat → Dense ℝ} {st : State}

/-- Tensor `i` has value `v`, and requires gradients if `b` says so. -/
def W (b : Bool) (st : State) (i : Nat) (v : Dense ℝ) : Prop := ∃ f, st[i]? = some (v, f) ∧ (b = true → f = true)

theorem W.v {b : Bool} {i : Nat} {v : Dense ℝ} (h : W b st i v) : V st i v := by
  obtain ⟨f, h, -⟩ := h
  exact ⟨f, h⟩

theorem W.d {i : Nat} {v : Dense ℝ} (h : W true st i v) : D st i v := by
  obtain ⟨f, h, hf⟩ := h
  rw [hf rfl] at h
  exact h

theorem W.dOf {b : Bool} {i : Nat} {v : Dense ℝ} (h : W b st i v) (hb : b = true) : D st i v := by
  subst hb; exact h.d

theorem D.w {i : Nat} {v : Dense ℝ} (h : D st i v) (b : Bool) : W b st i v := ⟨true, h, fun _ => rfl⟩

theorem V.w {i : Nat} {v : Dense ℝ} (h : V st i v) : W false st i v := by
  obtain ⟨f, h⟩ := h
  exact ⟨f, h, fun h => by cases h⟩

theorem W.mono {b : Bool} {i : Nat} {v : Dense ℝ} (h : W b st i v) (st' : State) : W b (st ++ st') i v := by
  obtain ⟨f, h, hf⟩ := h
  exact ⟨f, by rw [List.getElem?_append_left (List.getElem?_eq_some_iff.mp h).1, h], hf⟩

theorem W.le {b b' : Bool} {i : Nat} {v : Dense ℝ} (h : W b st i v) (hb : b' = true → b = true) : W b' st i v := by
  obtain ⟨f, h, hf⟩ := h
  exact ⟨f, h, fun e => hf (hb e)⟩

/-- An operator whose value is known. -/
theorem callW {b : Bool} {f : GradFn ℝ} {args : List Nat} {xs : List (Dense ℝ)} {y : Dense ℝ}
    (hv : List.Forall₂ (V st) args xs) (hy : f.forward xs = some y) (hd : b = true → ∃ i ∈ args, ∃ v, D st i v)
    (hs : s → ∀ act, Safe act f xs) : Sim s θ st (call f args) (some y) (W b) := by
  have hm := mapM_vals hv
  refine ⟨[(y, args.any fun j => (st.map Prod.snd).getD j false)], ?_, ?_, ?_, ?_⟩
  · show run θ [.call f args] _ = _
    simp only [run, Tape.step, Option.bind_eq_bind, hm, Option.bind_some, hy, List.map_append, List.map_cons, List.map_nil]
  · show needs [.call f args] _ = _
    simp only [needs, List.map_append, List.map_cons, List.map_nil]
  · refine fun h' => ⟨fun xs' h act => ?_, fun v _ => trivial⟩
    rw [hm] at h
    obtain rfl := Option.some.inj h
    exact hs h' act
  · refine ⟨args.any fun j => (st.map Prod.snd).getD j false, ?_, fun hb => ?_⟩
    · show (st ++ [_])[st.length]? = _
      simp
    · obtain ⟨i, hi, v, hiv⟩ := hd hb
      rw [List.any_eq_true]
      exact ⟨i, hi, getD_eq (by rw [List.getElem?_map, hiv]; rfl)⟩

theorem bindSome {α β γ δ : Type} {c : B α} {y : β} {R : State → α → β → Prop} {k : α → B γ} {m : Option δ}
    {R' : State → γ → δ → Prop} (h : Sim s θ st c (some y) R)
    (hk : ∀ st' a, R (st ++ st') a y → Sim s θ (st ++ st') (k a) m R') : Sim s θ st (c >>= k) m R' := by
  have := Sim.bind (k' := fun _ => m) h fun st' a b hb hr => by
    obtain rfl := Option.some.inj hb
    exact hk st' a hr
  exact this

theorem bindV {γ δ : Type} {f : GradFn ℝ} {args : List Nat} {xs : List (Dense ℝ)} {y : Dense ℝ} {k : Nat → B γ}
    {m : Option δ} {R : State → γ → δ → Prop} (hv : List.Forall₂ (V st) args xs) (hy : f.forward xs = some y)
    (hs : s → ∀ act, Safe act f xs) (hk : ∀ st' a, V (st ++ st') a y → Sim s θ (st ++ st') (k a) m R) :
    Sim s θ st (call f args >>= k) m R :=
  bindSome (callW (b := false) hv hy (fun h => by cases h) hs) fun st' a h => hk st' a h.v

theorem bindD {γ δ : Type} {f : GradFn ℝ} {args : List Nat} {xs : List (Dense ℝ)} {y : Dense ℝ} {k : Nat → B γ}
    {m : Option δ} {R : State → γ → δ → Prop} (hv : List.Forall₂ (V st) args xs) (hy : f.forward xs = some y)
    (hd : ∃ i ∈ args, ∃ v, D st i v)
    (hs : s → ∀ act, Safe act f xs) (hk : ∀ st' a, D (st ++ st') a y → Sim s θ (st ++ st') (k a) m R) :
    Sim s θ st (call f args >>= k) m R :=
  bindSome (callW (b := true) hv hy (fun _ => hd) hs) fun st' a h => hk st' a h.d

theorem forall₂_mono {b : Bool} {is : List Nat} {xs : List (Dense ℝ)} (h : List.Forall₂ (W b st) is xs) (st' : State) :
    List.Forall₂ (W b (st ++ st')) is xs :=
  List.Forall₂.imp (fun _ _ h => W.mono h st') h

theorem forall₂_le {b b' : Bool} {is : List Nat} {xs : List (Dense ℝ)} (h : List.Forall₂ (W b st) is xs)
    (hb : b' = true → b = true) : List.Forall₂ (W b' st) is xs :=
  List.Forall₂.imp (fun _ _ h => W.le h hb) h

theorem forall₂_v {b : Bool} {is : List Nat} {xs : List (Dense ℝ)} (h : List.Forall₂ (W b st) is xs) : Inputs st is xs :=
  List.Forall₂.imp (fun _ _ h => W.v h) h

theorem outputs_w {is : List Nat} {xs : List (Dense ℝ)} (h : Outputs st is xs) (b : Bool) : List.Forall₂ (W b st) is xs :=
  List.Forall₂.imp (fun _ _ h => D.w h b) h

/-! ### Layers that treat every vector alike -/

theorem each_sim {f : Nat → B Nat} {d e : Nat} {g : (Nat → ℝ) → Nat → ℝ} {b b' : Bool} {M : State → Prop}
    {P : (Nat → ℝ) → Prop} (hM : ∀ st st', M st → M (st ++ st'))
    (hf : ∀ st i x, M st → (s → P x) → W b st i (col d x) → Sim s θ st (f i) (some (col e (g x))) (W b')) :
    ∀ {is : List Nat} {xs : List (Nat → ℝ)} {st : State}, M st → (s → ∀ x ∈ xs, P x) →
      List.Forall₂ (W b st) is (xs.map (col d)) →
      Sim s θ st (each f is) (some ((xs.map g).map (col e))) (fun st => List.Forall₂ (W b' st))
  | [], [], st, _, _, _ => Sim.pure .nil
  | i :: is, x :: xs, st, hm, hp, .cons hi his => by
    refine bindSome (hf st i x hm (fun h => hp h x (by simp)) hi) fun st₁ y hy => ?_
    refine bindSome (each_sim hM hf (hM _ _ hm) (fun h x hx => hp h x (by simp [hx])) (forall₂_mono his st₁))
      fun st₂ ys hys => ?_
    exact Sim.pure (.cons (hy.mono st₂) hys)

/-- Tensors `k`, ..., `k + n - 1` are the parameters. -/
def Params (st : State) (τ : Nat → Dense ℝ) (k n : Nat) : Prop := ∀ x, k ≤ x → x < k + n → D st x (τ x)

theorem Params.mono {τ : Nat → Dense ℝ} {k n : Nat} (h : Params st τ k n) (st' : State) : Params (st ++ st') τ k n :=
  fun x h1 h2 => (h x h1 h2).mono st'

theorem Params.at {τ : Nat → Dense ℝ} {k n : Nat} (h : Params st τ k n) (j : Nat) (hj : j < n) : D st (k + j) (τ (k + j)) :=
  h _ (by omega) (by omega)

/-- A well-formed matrix of the given dimensions. -/
structure Mat (w : Dense ℝ) (r c : Nat) : Prop where
  wf : w.WF
  rows : w.rows = r
  cols : w.cols = c

theorem Mat.eq_col {b : Dense ℝ} {n : Nat} (h : Mat b n 1) : b = col n b.val := by
  have := Verif.eq_col h.wf h.cols
  rw [h.rows] at this
  exact this

theorem affine_value {w b : Dense ℝ} {r c : Nat} (hw : Mat w r c) (hb : Mat b r 1) (x : Nat → ℝ) :
    affine.forward [b, w, col c x] = some (col r (affineMap c w b x)) := by
  have := affine_col hw.wf b.val x
  rw [hw.rows, hw.cols, ← hb.eq_col] at this
  exact this

theorem linear_sim {w b : Nat} {wv bv : Dense ℝ} {i o : Nat} (hw : Mat wv o i) (hb : Mat bv o 1) {c : Bool}
    {is : List Nat} {xs : List (Nat → ℝ)} (h1 : D st w wv) (h2 : D st b bv)
    (h : List.Forall₂ (W c st) is (xs.map (col i))) :
    Sim s θ st (linear w b is) (some ((xs.map (affineMap i wv bv)).map (col o))) (fun st => List.Forall₂ (W true st)) := by
  refine each_sim (M := fun st => D st w wv ∧ D st b bv) (P := fun _ => True)
    (fun st st' h => ⟨h.1.mono st', h.2.mono st'⟩) ?_ ⟨h1, h2⟩ (fun _ _ _ => trivial) h
  intro st i x hm _ hx
  exact callW (.cons hm.2.v (.cons hm.1.v (.cons hx.v .nil))) (affine_value hw hb x)
    (fun _ => ⟨b, by simp, _, hm.2⟩) fun _ _ => .affine

theorem hardSigmoid_fn (v : ℝ) : hardSigmoidF v = Point.fn .hardSigmoid v := by
  show _ = Max.max 0 (Min.min 1 (v / 5 + 1 / 2))
  unfold hardSigmoidF
  split
  · rename_i h
    have h' : (2.5 : ℝ) < v := h
    norm_num at h'
    rw [min_eq_left (by linarith), max_eq_right (by norm_num)]
  · rename_i h
    have h' : v ≤ 2.5 := not_lt.mp h
    norm_num at h'
    rw [min_eq_right (by linarith)]
    split
    · rename_i h2
      norm_num at h2
      rw [max_eq_left (by linarith)]
    · rename_i h2
      norm_num at h2
      rw [max_eq_right (by linarith)]
      norm_num
      ring

theorem hardTanh_fn (v : ℝ) : hardTanhF v = Point.fn .hardTanh v := by
  show _ = Max.max (-1) (Min.min 1 v)
  unfold hardTanhF
  split
  · rename_i h
    have h' : (1 : ℝ) < v := h
    rw [min_eq_left h'.le, max_eq_right (by norm_num)]
  · rename_i h
    have h' : v ≤ 1 := not_lt.mp h
    rw [min_eq_right h']
    split
    · rename_i h2
      rw [max_eq_left h2.le]
    · rename_i h2
      rw [max_eq_right (not_lt.mp h2)]

theorem hardTanh_smooth {v : ℝ} (h : |v| ≠ 1) : DifferentiableAt ℝ hardTanhF v := by
  rcases lt_trichotomy v (-1) with h1 | h1 | h1
  · refine (differentiableAt_const (-1 : ℝ)).congr_of_eventuallyEq ?_
    filter_upwards [Iio_mem_nhds h1] with u hu
    have hu : u < -1 := hu
    rw [hardTanhF, if_neg (by linarith), if_pos hu]
  · rw [h1] at h; norm_num at h
  rcases lt_trichotomy v 1 with h2 | h2 | h2
  · refine differentiableAt_id.congr_of_eventuallyEq ?_
    filter_upwards [Ioo_mem_nhds h1 h2] with u hu
    obtain ⟨ha, hb⟩ := hu
    rw [hardTanhF, if_neg (by linarith), if_neg (by linarith)]; rfl
  · rw [h2] at h; norm_num at h
  · refine (differentiableAt_const (1 : ℝ)).congr_of_eventuallyEq ?_
    filter_upwards [Ioi_mem_nhds h2] with u hu
    exact if_pos hu

theorem hardSigmoid_smooth {v : ℝ} (h : |v| ≠ 5 / 2) : DifferentiableAt ℝ hardSigmoidF v := by
  rcases lt_trichotomy v (-2.5) with h1 | h1 | h1
  · refine (differentiableAt_const (0 : ℝ)).congr_of_eventuallyEq ?_
    filter_upwards [Iio_mem_nhds h1] with u hu
    have hu : u < -2.5 := hu
    rw [hardSigmoidF, if_neg (by norm_num at hu ⊢; linarith), if_pos hu]
  · rw [h1] at h; norm_num [abs_of_pos] at h
  rcases lt_trichotomy v 2.5 with h2 | h2 | h2
  · have hd : DifferentiableAt ℝ (fun v : ℝ => 0.2 * v + 0.5) v := by fun_prop
    refine hd.congr_of_eventuallyEq ?_
    filter_upwards [Ioo_mem_nhds h1 h2] with u hu
    obtain ⟨ha, hb⟩ := hu
    rw [hardSigmoidF, if_neg (not_lt.mpr hb.le), if_neg (not_lt.mpr ha.le)]
  · rw [h2] at h; norm_num [abs_of_pos] at h
  · refine (differentiableAt_const (1 : ℝ)).congr_of_eventuallyEq ?_
    filter_upwards [Ioi_mem_nhds h2] with u hu
    exact if_pos hu

theorem col_mem {d : Nat} {x : Nat → ℝ} {v : ℝ} (hv : v ∈ (col d x).data) : ∃ j < d, x j = v := by
  simp only [col, List.mem_map, List.mem_range] at hv
  exact hv

theorem point_value (p : Point) (d : Nat) (x : Nat → ℝ) : p.op.forward [col d x] = some (col d fun j => p.fn (x j)) := by
  cases p
  · exact elementwise_col _ _ _ _
  · refine (elementwise_col _ _ _ _).trans ?_
    simp only [sigmoidF, Point.fn, mul_neg_one]
  · refine (elementwise_col _ _ _ _).trans ?_
    simp only [swishF, sigmoidF, Point.fn, mul_neg_one]
    refine congrArg some (col_congr fun j _ => by ring)
  · exact elementwise_col _ _ _ _
  · exact elementwise_col _ _ _ _
  · exact elementwise_col _ _ _ _
  · exact elementwise_col _ _ _ _
  · exact (elementwise_col _ _ _ _).trans (congrArg some (col_congr fun j _ => hardSigmoid_fn _))
  · exact (elementwise_col _ _ _ _).trans (congrArg some (col_congr fun j _ => hardTanh_fn _))

theorem point_safe {p : Point} {d : Nat} {x : Nat → ℝ} (h : ∀ j < d, p.Smooth (x j)) (act : Nat → Prop) :
    Safe act p.op [col d x] := by
  cases p
  · exact .tanh
  · exact .sigmoid
  · exact .swish
  · exact .mish
  · exact .softsign
  · refine .relu fun v hv => ?_
    simp only [col, List.mem_map, List.mem_range] at hv
    obtain ⟨j, hj, rfl⟩ := hv
    exact h j hj
  · refine .tan fun v hv => ?_
    obtain ⟨j, hj, rfl⟩ := col_mem hv
    exact Real.differentiableAt_tan.mpr (h j hj)
  · refine .hardSigmoid fun v hv => ?_
    obtain ⟨j, hj, rfl⟩ := col_mem hv
    exact hardSigmoid_smooth (h j hj)
  · refine .hardTanh fun v hv => ?_
    obtain ⟨j, hj, rfl⟩ := col_mem hv
    exact hardTanh_smooth (h j hj)

theorem activate_sim {p : Point} {d : Nat} {b : Bool} {is : List Nat} {xs : List (Nat → ℝ)}
    (hp : s → ∀ x ∈ xs, ∀ j < d, p.Smooth (x j)) (h : List.Forall₂ (W b st) is (xs.map (col d))) :
    Sim s θ st (activate p is) (some ((xs.map fun x j => p.fn (x j)).map (col d))) (fun st => List.Forall₂ (W b st)) := by
  refine each_sim (M := fun _ => True) (P := fun x => ∀ j < d, p.Smooth (x j)) (fun _ _ _ => trivial) ?_ trivial hp h
  intro st i x _ hx hi
  exact callW (.cons hi.v .nil) (point_value p d x) (fun hb => ⟨i, by simp, _, hi.dOf hb⟩) fun h act => point_safe (hx h) act

theorem softmax_value {d : Nat} (hd : 0 < d) (x : Nat → ℝ) :
    softmaxR.forward [col d x] = some (col d fun j => Real.exp (x j) / ∑ c ∈ Finset.range d, Real.exp (x c)) := by
  have h := (VecFn.softmax_eq (col_WF d x)).2 (col_isVector d x)
    (by rw [← List.length_pos_iff, col_length]; exact hd)
  refine Eq.trans h ?_
  congr 1
  have hs : ((col d x).data.map Real.exp).sum = ∑ c ∈ Finset.range d, Real.exp (x c) := by
    have := col_sum d fun i => Real.exp (x i)
    rw [← this, ← col_map, VecFn.sum_eq]; rfl
  rw [hs, col_length]
  simp [col, Function.comp_def]

theorem softmax_safe {d : Nat} (hd : 0 < d) (x : Nat → ℝ) (act : Nat → Prop) : Safe act softmaxR [col d x] :=
  .softmax rfl (by rw [← List.length_pos_iff, col_length]; exact hd)

theorem softmaxes_sim {d : Nat} (hd : 0 < d) {b : Bool} {is : List Nat} {xs : List (Nat → ℝ)}
    (h : List.Forall₂ (W b st) is (xs.map (col d))) :
    Sim s θ st (softmaxes is) (some ((xs.map fun x j => Real.exp (x j) / ∑ c ∈ Finset.range d, Real.exp (x c)).map (col d)))
      (fun st => List.Forall₂ (W b st)) := by
  refine each_sim (M := fun _ => True) (P := fun _ => True) (fun _ _ _ => trivial) ?_ trivial (fun _ _ _ => trivial) h
  intro st i x _ _ hi
  exact callW (.cons hi.v .nil) (softmax_value hd x) (fun hb => ⟨i, by simp, _, hi.dOf hb⟩) fun _ act => softmax_safe hd x act

theorem log_value (d : Nat) (x : Nat → ℝ) : logR.forward [col d x] = some (col d fun j => Real.log (x j)) := by
  show some ((col d x).map Real.log) = _
  rw [col_map]

theorem logSoftmaxes_sim {d : Nat} (hd : 0 < d) {b : Bool} {is : List Nat} {xs : List (Nat → ℝ)}
    (h : List.Forall₂ (W b st) is (xs.map (col d))) :
    Sim s θ st (logSoftmaxes is) (some ((xs.map fun x j => x j - Real.log (∑ c ∈ Finset.range d, Real.exp (x c))).map (col d)))
      (fun st => List.Forall₂ (W b st)) := by
  refine each_sim (M := fun _ => True) (P := fun _ => True) (fun _ _ _ => trivial) ?_ trivial (fun _ _ _ => trivial) h
  intro st i x _ _ hi
  have hpos : 0 < ∑ c ∈ Finset.range d, Real.exp (x c) :=
    Finset.sum_pos (fun _ _ => Real.exp_pos _) ⟨0, Finset.mem_range.mpr hd⟩
  refine bindSome (callW (b := b) (.cons hi.v .nil) (softmax_value hd x) (fun hb => ⟨i, by simp, _, hi.dOf hb⟩)
    fun _ act => softmax_safe hd x act) fun st₁ y hy => ?_
  refine callW (.cons hy.v .nil) ((log_value _ _).trans ?_) (fun hb => ⟨y, by simp, _, hy.dOf hb⟩) fun _ _ => .log fun v hv => ?_
  · refine congrArg some (col_congr fun j _ => ?_)
    rw [Real.log_div (Real.exp_ne_zero _) hpos.ne', Real.log_exp]
  · obtain ⟨j, -, rfl⟩ := col_mem hv
    exact div_pos (Real.exp_pos _) hpos

theorem scalar_data {a : ℝ} {v : ℝ} (h : v ∈ (scalar a).data) : v = a := by simpa [scalar] using h

theorem layerNorm_sim {w b : Nat} {wv bv : Dense ℝ} {d : Nat} (hw : Mat wv d 1) (hb : Mat bv d 1) {eps : ℝ} {x : Nat}
    {v : Nat → ℝ} (h1 : D st w wv) (h2 : D st b bv) (hx : V st x (col d v)) (hr : s → 0 < variance d v + eps) :
    Sim s θ st (layerNorm w b eps x)
      (some (col d fun j => (v j - average d v) / Real.sqrt (variance d v + eps) * wv.val j + bv.val j)) (W true) := by
  refine bindV (.cons hx .nil) (Norm.mean_col d v) (fun _ _ => .reduceMean rfl) fun st₁ mean hmean => ?_
  replace hx := hx.mono st₁; replace h1 := h1.mono st₁; replace h2 := h2.mono st₁
  refine bindV (.cons hx (.cons hmean .nil)) (subScalar_col _ _ _) (fun _ _ => .subScalar) fun st₂ dev hdev => ?_
  replace h1 := h1.mono st₂; replace h2 := h2.mono st₂
  refine bindV (.cons hdev (.cons hdev .nil)) (Norm.square_col _ _) (fun _ _ => .prod) fun st₃ q hq => ?_
  replace h1 := h1.mono st₃; replace h2 := h2.mono st₃; replace hdev := hdev.mono st₃
  refine bindV (.cons hq .nil) (Norm.mean_col _ _) (fun _ _ => .reduceMean rfl) fun st₄ va hva => ?_
  replace h1 := h1.mono st₄; replace h2 := h2.mono st₄; replace hdev := hdev.mono st₄
  refine Sim.bindConst fun st₅ e he => ?_
  replace h1 := h1.mono st₅; replace h2 := h2.mono st₅; replace hdev := hdev.mono st₅; replace hva := hva.mono st₅
  refine bindV (.cons hva (.cons he .nil)) (Norm.add_sc _ _) (fun _ _ => .add) fun st₆ a ha => ?_
  replace h1 := h1.mono st₆; replace h2 := h2.mono st₆; replace hdev := hdev.mono st₆
  refine bindV (.cons ha .nil) (Norm.sqrt_scalar _) (fun h _ => .sqrt fun v hv => ?_) fun st₇ sd hsd => ?_
  · rw [scalar_data hv]; exact hr h
  replace h1 := h1.mono st₇; replace h2 := h2.mono st₇; replace hdev := hdev.mono st₇
  refine bindV (.cons hdev (.cons hsd .nil)) (divScalar_col _ _ _) (fun h _ => .divScalar ?_) fun st₈ z hz => ?_
  · exact Real.sqrt_ne_zero'.mpr (hr h)
  replace h1 := h1.mono st₈; replace h2 := h2.mono st₈
  rw [hw.eq_col] at h1
  rw [hb.eq_col] at h2
  refine bindV (.cons hz (.cons h1.v .nil)) (prod_col _ _ _) (fun _ _ => .prod) fun st₉ p hp => ?_
  replace h2 := h2.mono st₉
  exact callW (.cons hp (.cons h2.v .nil)) (add_col _ _ _) (fun _ => ⟨b, by simp, _, h2⟩) fun _ _ => .add

theorem rmsNorm_sim {w b : Nat} {wv bv : Dense ℝ} {d : Nat} (hw : Mat wv d 1) (hb : Mat bv d 1) {x : Nat}
    {v : Nat → ℝ} (h1 : D st w wv) (h2 : D st b bv) (hx : V st x (col d v)) (hr : s → ∃ j < d, v j ≠ 0) :
    Sim s θ st (rmsNorm w b x)
      (some (col d fun j => v j / (Real.sqrt (average d fun c => v c ^ 2) + 1e-10) * wv.val j + bv.val j)) (W true) := by
  have hpos : s → 0 < average d fun c => v c ^ 2 := by
    intro h
    obtain ⟨j, hj, hne⟩ := hr h
    have h1 : 0 < ∑ c ∈ Finset.range d, v c ^ 2 :=
      Finset.sum_pos' (fun _ _ => sq_nonneg _) ⟨j, Finset.mem_range.mpr hj, by positivity⟩
    have h2 : (0 : ℝ) < d := by exact_mod_cast (by omega : 0 < d)
    exact div_pos h1 h2
  refine bindV (.cons hx (.cons hx .nil)) (Norm.square_col _ _) (fun _ _ => .prod) fun st₁ q hq => ?_
  replace hx := hx.mono st₁; replace h1 := h1.mono st₁; replace h2 := h2.mono st₁
  refine bindV (.cons hq .nil) (Norm.mean_col _ _) (fun _ _ => .reduceMean rfl) fun st₂ va hva => ?_
  replace hx := hx.mono st₂; replace h1 := h1.mono st₂; replace h2 := h2.mono st₂
  refine bindV (.cons hva .nil) (Norm.sqrt_scalar _) (fun h _ => .sqrt fun v hv => ?_) fun st₃ r hr => ?_
  · rw [scalar_data hv]; exact hpos h
  replace hx := hx.mono st₃; replace h1 := h1.mono st₃; replace h2 := h2.mono st₃
  refine Sim.bindConst fun st₄ e he => ?_
  replace hx := hx.mono st₄; replace h1 := h1.mono st₄; replace h2 := h2.mono st₄; replace hr := hr.mono st₄
  refine bindV (.cons hr (.cons he .nil)) (Norm.addScalar_sc _ _) (fun _ _ => .addScalar) fun st₅ a ha => ?_
  replace hx := hx.mono st₅; replace h1 := h1.mono st₅; replace h2 := h2.mono st₅
  refine bindV (.cons hx (.cons ha .nil)) (divScalar_col _ _ _) (fun h _ => .divScalar ?_) fun st₆ z hz => ?_
  · have := Real.sqrt_nonneg (Norm.mean d fun c => v c ^ 2)
    have := Norm.tiny_pos
    show Real.sqrt (Norm.mean d fun c => v c ^ 2) + Norm.tiny ≠ 0
    linarith
  replace h1 := h1.mono st₆; replace h2 := h2.mono st₆
  rw [hw.eq_col] at h1
  rw [hb.eq_col] at h2
  refine bindV (.cons hz (.cons h1.v .nil)) (prod_col _ _ _) (fun _ _ => .prod) fun st₇ p hp => ?_
  replace h2 := h2.mono st₇
  exact callW (.cons hp (.cons h2.v .nil)) (add_col _ _ _) (fun _ => ⟨b, by simp, _, h2⟩) fun _ _ => .add

theorem layerNormSimple_sim {d : Nat} {b : Bool} {x : Nat} {v : Nat → ℝ} (hx : W b st x (col d v))
    (hr : s → 0 < variance d v) : Sim s θ st (layerNormSimple x)
      (some (col d fun j => (v j - average d v) / (Real.sqrt (variance d v) + 1e-10))) (W b) := by
  refine bindV (.cons hx.v .nil) (Norm.mean_col d v) (fun _ _ => .reduceMean rfl) fun st₁ mean hmean => ?_
  replace hx := hx.mono st₁
  refine bindV (.cons hx.v (.cons hmean .nil)) (subScalar_col _ _ _) (fun _ _ => .subScalar) fun st₂ dev hdev => ?_
  replace hx := hx.mono st₂; replace hmean := hmean.mono st₂
  refine bindV (.cons hdev (.cons hdev .nil)) (Norm.square_col _ _) (fun _ _ => .prod) fun st₃ q hq => ?_
  replace hx := hx.mono st₃; replace hmean := hmean.mono st₃
  refine bindV (.cons hq .nil) (Norm.mean_col _ _) (fun _ _ => .reduceMean rfl) fun st₄ va hva => ?_
  replace hx := hx.mono st₄; replace hmean := hmean.mono st₄
  refine bindV (.cons hva .nil) (Norm.sqrt_scalar _) (fun h _ => .sqrt fun v hv => ?_) fun st₅ sd hsd => ?_
  · rw [scalar_data hv]; exact hr h
  replace hx := hx.mono st₅; replace hmean := hmean.mono st₅
  refine bindSome (callW (b := b) (.cons hx.v (.cons hmean .nil)) (subScalar_col _ _ _)
    (fun hb => ⟨x, by simp, _, hx.dOf hb⟩) (fun _ _ => .subScalar)) fun st₆ dv hdv => ?_
  replace hsd := hsd.mono st₆
  refine Sim.bindConst fun st₇ e he => ?_
  replace hsd := hsd.mono st₇; replace hdv := hdv.mono st₇
  refine bindV (.cons hsd (.cons he .nil)) (Norm.add_sc _ _) (fun _ _ => .add) fun st₈ a ha => ?_
  replace hdv := hdv.mono st₈
  refine callW (.cons hdv.v (.cons ha .nil)) (divScalar_col _ _ _) (fun hb => ⟨dv, by simp, _, hdv.dOf hb⟩)
    fun h _ => .divScalar ?_
  have := Real.sqrt_nonneg (variance d v)
  have := Norm.tiny_pos
  show Real.sqrt (variance d v) + Norm.tiny ≠ 0
  linarith

theorem fixNorm_sim {d : Nat} {b : Bool} {x : Nat} {v : Nat → ℝ} (hx : W b st x (col d v)) (hr : s → ∃ j < d, v j ≠ 0) :
    Sim s θ st (fixNorm x) (some (col d fun j => v j / (euclid d v + 1e-10))) (W b) := by
  have hpos : s → 0 < ∑ c ∈ Finset.range d, v c ^ 2 := by
    intro h
    obtain ⟨j, hj, hne⟩ := hr h
    exact Finset.sum_pos' (fun _ _ => sq_nonneg _) ⟨j, Finset.mem_range.mpr hj, by positivity⟩
  refine bindV (.cons hx.v (.cons hx.v .nil)) (Norm.square_col _ _) (fun _ _ => .prod) fun st₁ q hq => ?_
  replace hx := hx.mono st₁
  refine bindV (.cons hq .nil) (reduceSum_col _ _) (fun _ _ => .reduceSum rfl) fun st₂ t ht => ?_
  replace hx := hx.mono st₂
  refine bindV (.cons ht .nil) (Norm.sqrt_scalar _) (fun h _ => .sqrt fun v hv => ?_) fun st₃ r hr => ?_
  · rw [scalar_data hv]; exact hpos h
  replace hx := hx.mono st₃
  refine Sim.bindConst fun st₄ e he => ?_
  replace hx := hx.mono st₄; replace hr := hr.mono st₄
  refine bindV (.cons hr (.cons he .nil)) (Norm.addScalar_sc _ _) (fun _ _ => .addScalar) fun st₅ a ha => ?_
  replace hx := hx.mono st₅
  refine callW (.cons hx.v (.cons ha .nil)) (divScalar_col _ _ _) (fun hb => ⟨x, by simp, _, hx.dOf hb⟩)
    fun h _ => .divScalar ?_
  have := Real.sqrt_nonneg (∑ c ∈ Finset.range d, v c ^ 2)
  have := Norm.tiny_pos
  show Real.sqrt (∑ c ∈ Finset.range d, v c ^ 2) + Norm.tiny ≠ 0
  linarith

theorem scaleNorm_sim {w : Nat} {wv : Dense ℝ} {d : Nat} (hw : Mat wv d 1) {x : Nat} {v : Nat → ℝ} (h1 : D st w wv)
    (hx : V st x (col d v)) (hr : s → ∃ j < d, v j ≠ 0) :
    Sim s θ st (scaleNorm w x) (some (col d fun j => v j / (euclid d v + 1e-10) * wv.val j)) (W true) := by
  refine bindSome (fixNorm_sim hx.w hr) fun st₁ z hz => ?_
  replace h1 := h1.mono st₁
  have h2 := h1
  rw [hw.eq_col] at h1
  exact callW (.cons hz.v (.cons h1.v .nil)) (prod_col _ _ _) (fun _ => ⟨w, by simp, _, h2⟩) fun _ _ => .prod

theorem sqrDist_sim {w : Nat} {wv : Dense ℝ} {d r : Nat} (hw : Mat wv r d) {x : Nat} {v : Nat → ℝ} (h1 : D st w wv)
    (hx : V st x (col d v)) :
    Sim s θ st (sqrDist w x) (some (col 1 fun _ => ∑ j ∈ Finset.range r, (∑ c ∈ Finset.range d, wv.el j c * v c) ^ 2))
      (W true) := by
  have e1 : GradFn.mul.forward [wv, col d v] = some (col r fun o => ∑ k ∈ Finset.range d, wv.el o k * v k) := by
    have := mul_col hw.wf v
    rw [hw.rows, hw.cols] at this
    exact this
  have e2 : transpose.forward [col r fun o => ∑ k ∈ Finset.range d, wv.el o k * v k] =
      some (mat2 1 r fun _ o => ∑ k ∈ Finset.range d, wv.el o k * v k) := by
    rw [col_eq_mat2]; exact mat2_T _ _ _
  refine bindD (.cons h1.v (.cons hx .nil)) e1 ⟨w, by simp, _, h1⟩ (fun _ _ => .mul) fun st₁ bh hbh => ?_
  refine bindV (.cons hbh.v .nil) e2 (fun _ _ => .transpose) fun st₂ t ht => ?_
  replace hbh := hbh.mono st₂
  refine callW (.cons ht (.cons hbh.v .nil)) ?_ (fun _ => ⟨bh, by simp, _, hbh⟩) fun _ _ => .mul
  rw [col_eq_mat2]
  refine (mat2_mul _ _ _ _ _).trans ?_
  rw [mat2_eq_col]
  exact congrArg some (col_congr fun _ _ => Finset.sum_congr rfl fun o _ => by ring)

theorem highway_sim {wIn bIn wT bT : Nat} {wv bv tv uv : Dense ℝ} {d : Nat} {f : Point} (hw : Mat wv d d)
    (hb : Mat bv d 1) (ht : Mat tv d d) (hu : Mat uv d 1) {x : Nat} {v : Nat → ℝ} (h1 : D st wIn wv) (h2 : D st bIn bv)
    (h3 : D st wT tv) (h4 : D st bT uv) (hx : V st x (col d v)) (hr : s → ∀ j < d, f.Smooth (affineMap d wv bv v j)) :
    Sim s θ st (highway wIn bIn wT bT f x) (some (col d (highwayMap d f wv bv tv uv v))) (W true) := by
  refine bindV (.cons h4.v (.cons h3.v (.cons hx .nil))) (affine_value ht hu v) (fun _ _ => .affine) fun st₁ a ha => ?_
  replace hx := hx.mono st₁; replace h1 := h1.mono st₁; replace h2 := h2.mono st₁
  refine bindV (.cons ha .nil) (point_value .sigmoid d _) (fun _ _ => .sigmoid) fun st₂ t ht => ?_
  replace hx := hx.mono st₂; replace h1 := h1.mono st₂; replace h2 := h2.mono st₂
  refine bindD (.cons h2.v (.cons h1.v (.cons hx .nil))) (affine_value hw hb v) ⟨bIn, by simp, _, h2⟩
    (fun _ _ => .affine) fun st₃ c hc => ?_
  replace hx := hx.mono st₃; replace ht := ht.mono st₃
  refine bindD (.cons hc.v .nil) (point_value f d _) ⟨c, by simp, _, hc⟩ (fun h act => point_safe (hr h) act)
    fun st₄ hh hhh => ?_
  replace hx := hx.mono st₄; replace ht := ht.mono st₄
  refine bindD (.cons ht (.cons hhh.v .nil)) (prod_col _ _ _) ⟨hh, by simp, _, hhh⟩ (fun _ _ => .prod) fun st₅ p hp => ?_
  replace hx := hx.mono st₅; replace ht := ht.mono st₅
  refine Sim.bindConst fun st₆ o ho => ?_
  replace hx := hx.mono st₆; replace ht := ht.mono st₆; replace hp := hp.mono st₆
  refine bindV (.cons ht (.cons ho .nil)) (reverseSubScalar_col _ _ _) (fun _ _ => .reverseSubScalar) fun st₇ r hr => ?_
  replace hx := hx.mono st₇; replace hp := hp.mono st₇
  refine bindV (.cons hr (.cons hx .nil)) (prod_col _ _ _) (fun _ _ => .prod) fun st₈ q hq => ?_
  replace hp := hp.mono st₈
  exact callW (.cons hp.v (.cons hq .nil)) (add_col _ _ _) (fun _ => ⟨p, by simp, _, hp⟩) fun _ _ => .add

end Verif.Record
