import Verif.Model.Layers
import Verif.Props.DerivedOps
import Mathlib.Analysis.SpecialFunctions.Log.Basic

set_option autoImplicit false
set_option linter.unusedSimpArgs false

/-!
# C52: activation functions by name, and the formulas they compute
-/

namespace Verif.Layers
open GradFn Dense Losses DerivedOps

/-! ### Names -/

theorem lookup_assign {K V : Type} [DecidableEq K] (m : List (K × V)) (k : K) (v : V) (s : K) :
    lookup (assign m k v) s = if s = k then some v else lookup m s := by
  unfold lookup assign
  by_cases h : s = k
  · subst h; simp
  · rw [if_neg h, List.find?_cons_of_neg (by simpa using fun e => h e.symm), List.find?_filter]
    congr 1
    apply List.find?_congr
    intro e _
    by_cases he : e.1 = s <;> simp [he, h]

/-- Entry `e` of the table is found under the key `s`. -/
def Matches (e : Act × List Char) (s : List Char) : Prop := s = e.2 ∨ s = lower e.2

theorem foldl_lookup (order : List (Act × List Char)) (m : List (List Char × Act)) (s : List Char)
    (hc : ∀ e ∈ order, ∀ f ∈ order, Matches e s → Matches f s → e.1 = f.1) (a : Act) :
    lookup (order.foldl (fun m e => assign (assign m e.2 e.1) (lower e.2) e.1) m) s = some a ↔
      (∃ e ∈ order, Matches e s ∧ e.1 = a) ∨ ((∀ e ∈ order, ¬ Matches e s) ∧ lookup m s = some a) := by
  induction order generalizing m with
  | nil => simp
  | cons e order ih =>
    rw [List.foldl_cons, ih _ fun x hx y hy => hc x (by simp [hx]) y (by simp [hy])]
    have hl : lookup (assign (assign m e.2 e.1) (lower e.2) e.1) s = if s = e.2 ∨ s = lower e.2 then some e.1 else lookup m s := by
      rw [lookup_assign, lookup_assign]
      by_cases h1 : s = lower e.2
      · rw [if_pos h1, if_pos (Or.inr h1)]
      · rw [if_neg h1]
        by_cases h2 : s = e.2
        · rw [if_pos h2, if_pos (Or.inl h2)]
        · rw [if_neg h2, if_neg (by tauto)]
    rw [hl]
    by_cases hm : s = e.2 ∨ s = lower e.2
    · rw [if_pos hm]
      constructor
      · rintro (⟨x, hx, h1, h2⟩ | ⟨-, h⟩)
        · exact Or.inl ⟨x, by simp [hx], h1, h2⟩
        · exact Or.inl ⟨e, by simp, hm, Option.some.inj h⟩
      · rintro (⟨x, hx, h1, h2⟩ | ⟨h, -⟩)
        · by_cases hex : ∃ y ∈ order, Matches y s
          · obtain ⟨y, hy, hys⟩ := hex
            exact Or.inl ⟨y, hy, hys, by rw [← h2]; exact hc y (by simp [hy]) x hx hys h1⟩
          · refine Or.inr ⟨fun y hy hys => hex ⟨y, hy, hys⟩, ?_⟩
            rw [← h2]
            exact congrArg some (hc e (by simp) x hx hm h1)
        · exact absurd hm (h e (by simp))
    · rw [if_neg hm]
      constructor
      · rintro (⟨x, hx, h1, h2⟩ | ⟨h, h'⟩)
        · exact Or.inl ⟨x, by simp [hx], h1, h2⟩
        · refine Or.inr ⟨fun x hx => ?_, h'⟩
          rcases List.mem_cons.mp hx with rfl | hx
          · exact hm
          · exact h x hx
      · rintro (⟨x, hx, h1, h2⟩ | ⟨h, h'⟩)
        · rcases List.mem_cons.mp hx with rfl | hx
          · exact absurd h1 hm
          · exact Or.inl ⟨x, hx, h1, h2⟩
        · exact Or.inr ⟨fun x hx => h x (by simp [hx]), h'⟩

set_option maxRecDepth 100000 in
theorem keys_distinct : ∀ e ∈ names, ∀ f ∈ names,
    (e.2 = f.2 ∨ e.2 = lower f.2 ∨ lower e.2 = f.2 ∨ lower e.2 = lower f.2) → e.1 = f.1 := by decide

theorem keys_consistent (s : List Char) : ∀ e ∈ names, ∀ f ∈ names, Matches e s → Matches f s → e.1 = f.1 := by
  intro e he f hf h1 h2
  apply keys_distinct e he f hf
  rcases h1 with h1 | h1 <;> rcases h2 with h2 | h2
  · exact Or.inl (h1.symm.trans h2)
  · exact Or.inr (Or.inl (h1.symm.trans h2))
  · exact Or.inr (Or.inr (Or.inl (h1.symm.trans h2)))
  · exact Or.inr (Or.inr (Or.inr (h1.symm.trans h2)))

/-- **C52.** In whatever order the table is visited, `ParseActivation(s)` returns `a` exactly when `s` is the name of `a`
or this name in lower case; in particular the result does not depend on the order. -/
theorem parse_spec {order : List (Act × List Char)} (ho : order.Perm names) (s : List Char) (a : Act) :
    parse order s = some a ↔ ∃ n, (a, n) ∈ names ∧ (s = n ∨ s = lower n) := by
  have := foldl_lookup order [] s (fun e he f hf => keys_consistent s e (ho.mem_iff.mp he) f (ho.mem_iff.mp hf)) a
  rw [parse, strMap, this]
  simp only [lookup, List.find?_nil, Option.map_none, reduceCtorEq, and_false, or_false]
  constructor
  · rintro ⟨e, he, hm, rfl⟩
    exact ⟨e.2, ho.mem_iff.mp he, hm⟩
  · rintro ⟨n, hn, hm⟩
    exact ⟨(a, n), ho.mem_iff.mpr hn, hm, rfl⟩

/-- **C52.** Every activation has exactly one name, and is found under it. -/
theorem names_complete : names.map (·.1) = Act.all ∧ Act.all.Nodup ∧ (∀ a, a ∈ Act.all ↔ a ≠ .other) := by
  refine ⟨rfl, by decide, ?_⟩
  intro a
  cases a <;> decide

theorem parse_name {order : List (Act × List Char)} (ho : order.Perm names) {a : Act} {n : List Char} (h : (a, n) ∈ names) :
    parse order n = some a ∧ parse order (lower n) = some a :=
  ⟨(parse_spec ho n a).mpr ⟨n, h, Or.inl rfl⟩, (parse_spec ho (lower n) a).mpr ⟨n, h, Or.inr rfl⟩⟩

/-- "relu" and "ReLU" are found, "RELU" is not. -/
example : parse names "relu".toList = some .relu ∧ parse names "ReLU".toList = some .relu ∧
    parse names.reverse "SiLU".toList = some .silu ∧ parse names "RELU".toList = none := by
  refine ⟨(parse_name (List.Perm.refl _) (a := .relu) (n := "ReLU".toList) (by decide)).2,
    (parse_name (List.Perm.refl _) (by decide)).1, (parse_name (List.reverse_perm _) (by decide)).1, ?_⟩
  cases h : parse names "RELU".toList with
  | none => rfl
  | some a =>
    obtain ⟨n, h1, h2⟩ := (parse_spec (List.Perm.refl _) _ _).mp h
    exfalso
    revert h1 h2
    have : ∀ e ∈ names, ¬ ("RELU".toList = e.2 ∨ "RELU".toList = lower e.2) := by decide
    exact fun h1 h2 => this _ h1 h2

/-! ### Formulas -/

/-- The formula of each element-wise activation as documented (mat/gradfn); `p`, `q` are its parameters. -/
noncomputable def formula (p q : ℝ) : Act → Option (ℝ → ℝ)
  | .identity => some fun x => x
  | .tan => some fun x => Real.sin x / Real.cos x
  | .tanh => some fun x => (Real.exp x - Real.exp (-x)) / (Real.exp x + Real.exp (-x))
  | .sigmoid => some fun x => 1 / (1 + Real.exp (-x))
  | .hardSigmoid => some fun x => Max.max 0 (Min.min 1 (0.2 * x + 0.5))
  | .hardTanh => some fun x => Max.max (-1) (Min.min 1 x)
  | .softsign => some fun x => x / (1 + |x|)
  | .relu => some fun x => Max.max 0 x
  | .celu => some fun x => Max.max 0 x + Min.min 0 (p * (Real.exp (x / p) - 1))
  | .gelu => some fun x => 0.5 * x * (1 + Real.tanh (Real.sqrt (2 / Real.pi) * (x + 0.044715 * x ^ 3)))
  | .elu => some fun x => Max.max 0 x + Min.min 0 (p * (Real.exp x - 1))
  | .positiveELU => some fun x => (Max.max 0 x + Min.min 0 (Real.exp x - 1)) + 1
  | .swishB => some fun x => x * (1 / (1 + Real.exp (-(p * x))))
  | .swish => some fun x => x * (1 / (1 + Real.exp (-x)))
  | .silu => some fun x => x * (1 / (1 + Real.exp (-x)))
  | .mish => some fun x => x * Real.tanh (Real.log (1 + Real.exp x))
  | .leakyReLU => some fun x => Max.max 0 x + p * Min.min 0 x
  | .selu => some fun x => q * (Max.max 0 x + Min.min 0 (p * (Real.exp x - 1)))
  | .softPlus => some fun x => if x ≤ q then 1 / p * Real.log (1 + Real.exp (p * x)) else x
  | .softShrink => some fun x => if x > p then x - p else if x < -p then x + p else 0
  | .threshold => some fun x => if x > p then x else q
  | .softmax | .logSoftmax | .sparseMax | .other => none

theorem map_congr (x : Dense ℝ) {f g : ℝ → ℝ} (h : ∀ v, f v = g v) : x.map f = x.map g := by
  rw [show f = g from funext h]

theorem params_fwd1 (f df : List ℝ → ℝ → ℝ) (x : Dense ℝ) (p : ℝ) :
    (elementwiseParams f df).forward [x, scalar p] = some (x.map (f [p])) := by
  simp only [elementwiseParams, List.mapM_cons, List.mapM_nil, item_scalar_some, Option.bind_eq_bind,
    Option.bind_some, apply_const, Option.pure_def]

theorem params_fwd2 (f df : List ℝ → ℝ → ℝ) (x : Dense ℝ) (p q : ℝ) :
    (elementwiseParams f df).forward [x, scalar p, scalar q] = some (x.map (f [p, q])) := by
  simp only [elementwiseParams, List.mapM_cons, List.mapM_nil, item_scalar_some, Option.bind_eq_bind,
    Option.bind_some, apply_const, Option.pure_def]

theorem elu_formula {p : ℝ} (hp : 0 ≤ p) (v : ℝ) :
    (if v ≤ 0 then p * (Real.exp v - 1) else if v > 0 then v else 0) =
      Max.max 0 v + Min.min 0 (p * (Real.exp v - 1)) := by
  by_cases h : v ≤ 0
  · have : p * (Real.exp v - 1) ≤ 0 := mul_nonpos_of_nonneg_of_nonpos hp (by
      have := Real.exp_le_one_iff.mpr h; linarith)
    rw [if_pos h, max_eq_left h, min_eq_right this, _root_.zero_add]
  · have h := not_le.mp h
    have : 0 ≤ p * (Real.exp v - 1) := mul_nonneg hp (by
      have := Real.one_lt_exp_iff.mpr h; linarith)
    rw [if_neg (not_le.mpr h), if_pos h, max_eq_right h.le, min_eq_left this, _root_.add_zero]

theorem celu_formula (p v : ℝ) :
    (if v ≤ 0 then p * (Real.exp (v / p) - 1) else if v > 0 then v else 0) =
      Max.max 0 v + Min.min 0 (p * (Real.exp (v / p) - 1)) := by
  have key : ∀ u, (0 ≤ u → 0 ≤ Real.exp u - 1) ∧ (u ≤ 0 → Real.exp u - 1 ≤ 0) := fun u =>
    ⟨fun h => by have := Real.one_le_exp_iff.mpr h; linarith, fun h => by have := Real.exp_le_one_iff.mpr h; linarith⟩
  by_cases h : v ≤ 0
  · have : p * (Real.exp (v / p) - 1) ≤ 0 := by
      rcases le_total 0 p with hp | hp
      · exact mul_nonpos_of_nonneg_of_nonpos hp ((key _).2 (div_nonpos_of_nonpos_of_nonneg h hp))
      · exact mul_nonpos_of_nonpos_of_nonneg hp ((key _).1 (div_nonneg_of_nonpos h hp))
    rw [if_pos h, max_eq_left h, min_eq_right this, _root_.zero_add]
  · have h := not_le.mp h
    have : 0 ≤ p * (Real.exp (v / p) - 1) := by
      rcases le_total 0 p with hp | hp
      · exact mul_nonneg hp ((key _).1 (div_nonneg h.le hp))
      · exact mul_nonneg_of_nonpos_of_nonpos hp ((key _).2 (div_nonpos_of_nonneg_of_nonpos h.le hp))
    rw [if_neg (not_le.mpr h), if_pos h, max_eq_right h.le, min_eq_left this, _root_.add_zero]

/-- **C52.** Every element-wise activation applies its documented formula to every element of every input. ELU, SELU
and SoftShrink need a parameter that is not negative (see `elu_negative`). -/
theorem forward_formula_partial {a : Act} {p q : ℝ} {f : ℝ → ℝ} (hf : formula p q a = some f)
    (hp : a = .elu ∨ a = .selu ∨ a = .softShrink → 0 ≤ p) (xs : List (Dense ℝ)) :
    a.forward [scalar p, scalar q] xs = some (xs.map fun x => x.map f) := by
  have key : ∀ F : Dense ℝ → Option (Dense ℝ), a.fn [scalar p, scalar q] = some F → (∀ x, F x = some (x.map f)) →
      a.forward [scalar p, scalar q] xs = some (xs.map fun x => x.map f) := by
    intro F h1 h2
    simp only [Act.forward, h1, Option.bind_eq_bind, Option.bind_some]
    exact GradFn.mapM_some _ fun x _ => h2 x
  cases a <;> simp only [formula, Option.some.injEq, reduceCtorEq] at hf <;> subst hf <;> refine key _ rfl fun x => ?_
  · simp [Dense.map]
  · exact (elementwise_fwd _ _ _).trans (congrArg some (map_congr x fun v => Real.tan_eq_sin_div_cos v))
  · refine (elementwise_fwd _ _ _).trans (congrArg some (map_congr x fun v => ?_))
    rw [tanhF, Real.tanh_eq_sinh_div_cosh, Real.sinh_eq, Real.cosh_eq]
    have : Real.exp v + Real.exp (-v) ≠ 0 := by positivity
    field_simp
  · exact (elementwise_fwd _ _ _).trans (congrArg some (map_congr x fun v => by rw [sigmoidF, mul_neg_one]))
  · refine (elementwise_fwd _ _ _).trans (congrArg some (map_congr x fun v => ?_))
    rw [hardSigmoidF]
    split
    · rw [min_eq_left (by linarith), max_eq_right (by norm_num)]
    · split
      · rw [min_eq_right (by linarith), max_eq_left (by linarith)]
      · rw [min_eq_right (by linarith), max_eq_right (by linarith)]
  · refine (elementwise_fwd _ _ _).trans (congrArg some (map_congr x fun v => ?_))
    rw [hardTanhF]
    split
    · rw [min_eq_left (by linarith), max_eq_right (by norm_num)]
    · split
      · rw [min_eq_right (by linarith), max_eq_left (by linarith)]
      · rw [min_eq_right (by linarith), max_eq_right (by linarith)]
  · exact elementwise_fwd _ _ _
  · exact elementwise_fwd _ _ _
  · refine (params_fwd1 celuF celuD x p).trans (congrArg some (map_congr x fun v => celu_formula p v))
  · exact elementwise_fwd _ _ _
  · exact (params_fwd1 eluF eluD x p).trans (congrArg some (map_congr x fun v => elu_formula (hp (by simp)) v))
  · refine (positiveELU_eq x).trans (congrArg some (map_congr x fun v => ?_))
    have := elu_formula (zero_le_one) v
    rw [_root_.one_mul] at this
    rw [← this]
    by_cases h : v ≤ 0
    · rw [if_pos h, if_pos h]; ring
    · rw [if_neg h, if_neg h, if_pos (not_le.mp h)]
  · have : swishBR.forward [x, scalar p] = some (x.map (swishBF p)) := by
      simp only [swishBR, GradFn.swishB, item_scalar_some, Option.bind_eq_bind, Option.bind_some, apply_const]
    exact this.trans (congrArg some (map_congr x fun v => by rw [swishBF, mul_neg]))
  · exact (elementwise_fwd _ _ _).trans (congrArg some (map_congr x fun v => by
      rw [swishF, sigmoidF, mul_neg_one, _root_.mul_comm]))
  · exact (elementwise_fwd _ _ _).trans (congrArg some (map_congr x fun v => by
      rw [swishF, sigmoidF, mul_neg_one, _root_.mul_comm]))
  · exact elementwise_fwd _ _ _
  · refine (params_fwd1 leakyReluF leakyReluD x p).trans (congrArg some (map_congr x fun v => ?_))
    simp only [leakyReluF, List.getD_cons_zero]
    by_cases h : v ≤ 0
    · rw [if_pos h, max_eq_left h, min_eq_right h, _root_.zero_add]
    · have h := not_le.mp h
      rw [if_neg (not_le.mpr h), if_pos h, max_eq_right h.le, min_eq_left h.le, MulZeroClass.mul_zero, _root_.add_zero]
  · refine (params_fwd2 seluF seluD x p q).trans (congrArg some (map_congr x fun v => ?_))
    rw [← elu_formula (hp (by simp)) v]
    simp only [seluF, List.getD_cons_zero, List.getD_cons_succ]
    split
    · ring
    · split <;> ring
  · refine (params_fwd2 softPlusF softPlusD x p q).trans (congrArg some (map_congr x fun v => ?_))
    simp only [softPlusF, List.getD_cons_zero, List.getD_cons_succ]
    split
    · rfl
    · rw [if_pos (by linarith)]
  · refine (params_fwd1 softShrinkF softShrinkD x p).trans (congrArg some (map_congr x fun v => ?_))
    have hp := hp (by simp)
    simp only [softShrinkF, List.getD_cons_zero]
    by_cases h : v < -p
    · rw [if_pos h, if_neg (by linarith), if_pos h]
    · rw [if_neg h]
      split
      · rfl
      · rfl
  · refine (params_fwd2 thresholdF thresholdD x p q).trans (congrArg some (map_congr x fun v => ?_))
    simp only [thresholdF, List.getD_cons_zero, List.getD_cons_succ]
    by_cases h : v ≤ p
    · rw [if_pos h, if_neg (by linarith)]
    · rw [if_neg h, if_pos (not_le.mp h), if_pos (not_le.mp h)]

/-- **C52, violated.** With a negative alpha ELU differs from its documented formula at every element but 0. -/
theorem elu_negative {p : ℝ} (hp : p < 0) {v : ℝ} (hv : v ≠ 0) : ∃ y, Act.elu.forward [scalar p] [scalar v] = some [scalar y] ∧
    y ≠ Max.max 0 v + Min.min 0 (p * (Real.exp v - 1)) := by
  refine ⟨if v ≤ 0 then p * (Real.exp v - 1) else if v > 0 then v else 0, ?_, ?_⟩
  · have : GradFn.elu.forward [scalar v, scalar p] = _ := params_fwd1 _ _ (scalar v) p
    simp only [Act.forward, Act.fn, List.mapM_cons, List.mapM_nil, Option.bind_eq_bind, Option.bind_some,
      List.getElem?_cons_zero, this, Option.pure_def]
    rfl
  · rcases lt_or_gt_of_ne hv with h | h
    · have : 0 < p * (Real.exp v - 1) := mul_pos_of_neg_of_neg hp (by
        have := Real.exp_lt_one_iff.mpr h; linarith)
      rw [if_pos h.le, max_eq_left h.le, min_eq_left this.le]
      linarith
    · have : p * (Real.exp v - 1) < 0 := mul_neg_of_neg_of_pos hp (by
        have := Real.one_lt_exp_iff.mpr h; linarith)
      rw [if_neg (not_le.mpr h), if_pos h, max_eq_right h.le, min_eq_right this.le]
      linarith

/-- **C52.** Above its threshold SoftPlus returns `x` instead of the documented `log(1 + exp(βx)) / β`; the difference is
less than `exp(-β threshold) / β`. -/
theorem softPlus_gap {beta t x : ℝ} (hb : 0 < beta) (hx : t < x) :
    0 < 1 / beta * Real.log (1 + Real.exp (beta * x)) - x ∧
      1 / beta * Real.log (1 + Real.exp (beta * x)) - x < Real.exp (-(beta * t)) / beta := by
  have h1 : Real.log (1 + Real.exp (beta * x)) = beta * x + Real.log (1 + Real.exp (-(beta * x))) := by
    rw [show 1 + Real.exp (beta * x) = Real.exp (beta * x) * (1 + Real.exp (-(beta * x))) by
      rw [_root_.mul_add, ← Real.exp_add]; simp [_root_.add_comm], Real.log_mul (Real.exp_ne_zero _) (by positivity), Real.log_exp]
  have h2 : 1 / beta * Real.log (1 + Real.exp (beta * x)) - x = Real.log (1 + Real.exp (-(beta * x))) / beta := by
    rw [h1]; field_simp; ring
  rw [h2]
  have he := Real.exp_pos (-(beta * x))
  refine ⟨div_pos (Real.log_pos (by linarith)) hb, ?_⟩
  apply div_lt_div_of_pos_right _ hb
  have h3 : Real.log (1 + Real.exp (-(beta * x))) < Real.exp (-(beta * x)) := by
    have := Real.log_lt_sub_one_of_pos (show 0 < 1 + Real.exp (-(beta * x)) by linarith) (by linarith)
    linarith
  have h4 : Real.exp (-(beta * x)) < Real.exp (-(beta * t)) := Real.exp_lt_exp.mpr (by nlinarith)
  linarith

/-- The number of parameters an activation reads. -/
def arity : Act → Nat
  | .celu | .elu | .swishB | .leakyReLU | .softShrink => 1
  | .selu | .softPlus | .threshold => 2
  | _ => 0

/-- **C52.** Exactly the constants of the package are supported: `Forward` without inputs fails only for other numbers. -/
theorem supported_iff (a : Act) (ps : List (Dense ℝ)) : (a.forward ps []).isSome ↔ a ≠ .other := by
  cases a <;> simp [Act.forward, Act.fn]

/-- **C52.** With fewer parameters than its arity an activation fails on every nonempty list of inputs. -/
theorem missing_params {a : Act} {ps : List (Dense ℝ)} (h : ps.length < arity a) (x : Dense ℝ) (xs : List (Dense ℝ)) :
    a.forward ps (x :: xs) = none := by
  have h0 : arity a = 1 → ps[0]? = none := by intro e; rw [List.getElem?_eq_none]; omega
  have h1 : arity a = 2 → ps[1]? = none := by intro e; rw [List.getElem?_eq_none]; omega
  cases a <;> simp only [arity] at h h0 h1 <;> try omega
  all_goals
    simp only [Act.forward, Act.fn, Option.bind_eq_bind, Option.bind_some, List.mapM_cons, h0, h1, Option.bind_none, forall_const]
  all_goals try simp only [Option.bind_none]
  all_goals cases ps[0]? <;> rfl

/-- **C52.** Softmax and LogSoftmax of a vector that is not empty. -/
theorem softmax_forward {x : Dense ℝ} (hx : x.WF) (hv : x.isVector) (hne : x.data ≠ []) (ps : List (Dense ℝ)) :
    Act.softmax.forward ps [x] =
        some [⟨x.data.length, 1, x.data.map fun v => Real.exp v / (x.data.map Real.exp).sum⟩] ∧
      Act.logSoftmax.forward ps [x] =
        some [⟨x.data.length, 1, x.data.map fun v => v - Real.log (x.data.map Real.exp).sum⟩] := by
  have h1 : softmaxR.forward [x] = some ⟨x.data.length, 1, x.data.map fun v => Real.exp v / (x.data.map Real.exp).sum⟩ :=
    (VecFn.softmax_eq hx).2 hv hne
  have hs : 0 < (x.data.map Real.exp).sum := by
    apply List.sum_pos
    · intro v hv
      obtain ⟨u, -, rfl⟩ := List.mem_map.mp hv
      exact Real.exp_pos u
    · simpa using hne
  constructor
  · simp only [Act.forward, Act.fn, Option.bind_eq_bind, Option.bind_some, List.mapM_cons, List.mapM_nil, h1, Option.pure_def]
  · have h2 : ∀ y : Dense ℝ, (∀ v ∈ y.data, 0 < v) → logR.forward [y] = some (y.map Real.log) := fun _ _ => rfl
    have h3 := h2 ⟨x.data.length, 1, x.data.map fun v => Real.exp v / (x.data.map Real.exp).sum⟩ (by
      intro v hv
      obtain ⟨u, -, rfl⟩ := List.mem_map.mp hv
      exact div_pos (Real.exp_pos u) hs)
    simp only [Act.forward, Act.fn, Option.bind_eq_bind, Option.bind_some, List.mapM_cons, List.mapM_nil, h1, h3, Option.pure_def,
      Dense.map, List.map_map]
    refine congrArg (fun l => some [(⟨x.data.length, 1, l⟩ : Dense ℝ)]) (List.map_congr_left fun v _ => ?_)
    rw [Function.comp, Real.log_div (Real.exp_ne_zero _) hs.ne', Real.log_exp]

/-- **C52.** SparseMax is the sparsemax of the data (an `IsSparsemax` list, the projection onto the simplex), each
element capped by the maximum; it fails when the maximum is negative (see C25). -/
theorem sparseMax_forward {x : Dense ℝ} {m : ℝ} (hm : x.max = some m) (ps : List (Dense ℝ)) :
    ∃ p : List ℝ, VecFn.IsSparsemax x.data p ∧ Act.sparseMax.forward ps [x] =
      if m < 0 then none else some [⟨x.rows, x.cols, p.map fun v => Min.min v m⟩] := by
  obtain ⟨p, hp, h⟩ := VecFn.sparseMax_eq hm
  refine ⟨p, hp, ?_⟩
  have h' : GradFn.sparseMax.forward [x] = _ := h
  simp only [Act.forward, Act.fn, Option.bind_eq_bind, Option.bind_some, List.mapM_cons, List.mapM_nil, h']
  split <;> rfl

/-- The hypotheses of `forward_formula_partial` are met by a softPlus with parameters 1 and 20, and by an ELU with alpha 1. -/
example (x : Dense ℝ) : (∃ f, formula 1 20 .softPlus = some f ∧
    Act.softPlus.forward [scalar 1, scalar 20] [x, x] = some [x.map f, x.map f]) ∧
    ∃ f, formula 1 0 .elu = some f ∧ Act.elu.forward [scalar 1, scalar 0] [x] = some [x.map f] :=
  ⟨⟨_, rfl, forward_formula_partial rfl (by simp) [x, x]⟩, ⟨_, rfl, forward_formula_partial rfl (fun _ => zero_le_one) [x]⟩⟩

end Verif.Layers
