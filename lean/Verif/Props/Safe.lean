import Verif.Spec.Tape
import Verif.Props.Program
import Verif.Props.GradActivation
import Verif.Props.GradBinary
import Verif.Props.GradMul
import Verif.Props.GradGather
import Verif.Props.GradMax
import Verif.Props.GradMasked
import Verif.Props.GradShape

set_option autoImplicit false
set_option linter.unusedSimpArgs false

/-!
# The operators of the list `Safe` are right and serve their operands
-/

namespace Verif.GradFn
open Dense Backward
open scoped BigOperators Topology

theorem correctOn_mono {P Q : Nat → Prop} {f : GradFn ℝ} {xs : List (Dense ℝ)} (h : CorrectOn P f xs)
    (hq : ∀ k, Q k → P k) : CorrectOn Q f xs := by
  intro y hy gy hgy
  obtain ⟨gs, h1, h2, h3⟩ := h y hy gy hgy
  exact ⟨gs, h1, h2, fun X v hX a b => h3 X v hX (fun k hk => a k fun h => hk (hq k h))
    (fun k hk => b k fun h => hk (hq k h))⟩

theorem relu_smooth {v : ℝ} (h : v ≠ 0) : DifferentiableAt ℝ reluF v := by
  rcases lt_or_gt_of_ne h with h | h
  · refine (differentiableAt_const (0 : ℝ)).congr_of_eventuallyEq ?_
    filter_upwards [gt_mem_nhds h] with w hw
    exact max_eq_left (le_of_lt hw)
  · refine differentiableAt_id.congr_of_eventuallyEq ?_
    filter_upwards [lt_mem_nhds h] with w hw
    exact max_eq_right (le_of_lt hw)

theorem like_of_zip {f : ℝ → ℝ → ℝ} {x1 x2 y : Dense ℝ} (h2 : x2.WF) (h : zipOp f x1 x2 = some y) : x1.Like x2 := by
  simp only [zipOp] at h
  split at h
  · rename_i hd
    simp only [sameDims, Bool.and_eq_true, beq_iff_eq, decide_eq_true_eq] at hd
    exact ⟨h2, hd.1.symm, hd.2.symm⟩
  · cases h

/-- Every operator of the list is right. -/
theorem safe_correctOn {act : Nat → Prop} {f : GradFn ℝ} {xs : List (Dense ℝ)} (h : Safe act f xs)
    (hwf : ∀ x ∈ xs, x.WF) : CorrectOn act f xs := by
  cases h
  case tanh => exact correctOn_of_correct (smooth_correct (hwf _ (by simp))).1 _
  case sigmoid => exact correctOn_of_correct (smooth_correct (hwf _ (by simp))).2.1 _
  case swish => exact correctOn_of_correct (smooth_correct (hwf _ (by simp))).2.2.1 _
  case mish => exact correctOn_of_correct (smooth_correct (hwf _ (by simp))).2.2.2.1 _
  case softsign => exact correctOn_of_correct (smooth_correct (hwf _ (by simp))).2.2.2.2.1 _
  case exp => exact correctOn_of_correct (smooth_correct (hwf _ (by simp))).2.2.2.2.2.1 _
  case cos => exact correctOn_of_correct (smooth_correct (hwf _ (by simp))).2.2.2.2.2.2.1 _
  case sin => exact correctOn_of_correct (smooth_correct (hwf _ (by simp))).2.2.2.2.2.2.2.1 _
  case neg => exact correctOn_of_correct (smooth_correct (hwf _ (by simp))).2.2.2.2.2.2.2.2 _
  case tan h => exact correctOn_of_correct (tan_correct (hwf _ (by simp)) h) _
  case hardSigmoid h => exact correctOn_of_correct (hardSigmoid_correct (hwf _ (by simp)) h) _
  case hardTanh h => exact correctOn_of_correct (hardTanh_correct (hwf _ (by simp)) h) _
  case relu h => exact correctOn_of_correct (relu_correct (hwf _ (by simp)) fun v hv => relu_smooth (h v hv)) _
  case abs h =>
    exact correctOn_of_correct (abs_correct (hwf _ (by simp)) fun v hv => differentiableAt_abs (h v hv)) _
  case reciprocal h => exact correctOn_of_correct (reciprocal_correct (hwf _ (by simp)) h) _
  case sqrt h => exact correctOn_of_correct (sqrt_correct (hwf _ (by simp)) h) _
  case pow h => exact correctOn_of_correct (pow_correct (hwf _ (by simp)) h) _
  case log h => exact correctOn_of_correct (log_correct (hwf _ (by simp)) h) _
  case elu a h1 h2 => exact correctOn_mono (elu_correct (hwf _ (by simp)) h1 h2) a
  case celu a h1 h2 => exact correctOn_mono (celu_correct (hwf _ (by simp)) h1 h2) a
  case leakyRelu a h1 h2 => exact correctOn_mono (leakyRelu_correct (hwf _ (by simp)) h1 h2) a
  case selu a h1 h2 h3 => exact correctOn_mono (selu_correct (hwf _ (by simp)) h1 h2 h3) a
  case softPlus a h1 h2 h3 h4 => exact correctOn_mono (softPlus_correct (hwf _ (by simp)) h1 h2 h3 h4) a
  case threshold a h1 h2 h3 => exact correctOn_mono (threshold_correct (hwf _ (by simp)) h1 h2 h3) a
  case softShrink a h1 h2 h3 => exact correctOn_mono (softShrink_correct_partial (hwf _ (by simp)) h1 h2 h3) a
  case swishB h1 h2 =>
    exact correctOn_of_correct (swishB_correct_partial (hwf _ (by simp)) (hwf _ (by simp)) h1 h2) _
  case add => exact correctOn_of_correct (add_correct (hwf _ (by simp)) (hwf _ (by simp))) _
  case sub => exact correctOn_of_correct (sub_correct (hwf _ (by simp)) (hwf _ (by simp))) _
  case prod => exact correctOn_of_correct (prod_correct (hwf _ (by simp)) (hwf _ (by simp))) _
  case div h => exact correctOn_of_correct (div_correct (hwf _ (by simp)) (hwf _ (by simp)) h) _
  case addScalar => exact correctOn_of_correct (addScalar_correct (hwf _ (by simp)) (hwf _ (by simp))) _
  case subScalar => exact correctOn_of_correct (subScalar_correct (hwf _ (by simp)) (hwf _ (by simp))) _
  case reverseSubScalar =>
    exact correctOn_of_correct (reverseSubScalar_correct (hwf _ (by simp)) (hwf _ (by simp))) _
  case prodScalar => exact correctOn_of_correct (prodScalar_correct (hwf _ (by simp)) (hwf _ (by simp))) _
  case divScalar h => exact correctOn_of_correct (divScalar_correct (hwf _ (by simp)) (hwf _ (by simp)) h) _
  case dot => exact correctOn_of_correct (dot_correct (hwf _ (by simp)) (hwf _ (by simp))) _
  case mul => exact correctOn_of_correct (mul_correct (hwf _ (by simp)) (hwf _ (by simp))) _
  case mulT => exact correctOn_of_correct (mulT_correct (hwf _ (by simp)) (hwf _ (by simp))) _
  case affine => exact correctOn_of_correct (affine_correct hwf) _
  case concat h =>
    by_cases hs : (concat.forward xs).isSome
    · exact correctOn_of_correct ((concat_correct_iff hwf hs).mpr h) _
    · intro y hy; rw [hy] at hs; exact absurd rfl hs
  case stack => exact correctOn_of_correct (stack_correct hwf) _
  case appendRows x vs hne h =>
    intro y hy
    have hs := (appendRows_spec (hwf x (by simp)) vs).2 y hy
    refine correctOn_of_correct ((appendRows_correct_iff (hwf x (by simp)) (fun v hv => hwf v (by simp [hv])) hy
      ?_).mpr h) _ y hy
    intro e
    have hx : x.data.length = x.rows * x.cols := hwf x (by simp)
    have hy' : y.data.length = y.rows * y.cols := hs.1
    rw [hs.2.1, hs.2.2.1, e] at hy'
    apply hne
    apply List.eq_nil_of_length_eq_zero
    rw [hx]
    have hy' : (x.rows + vs.length) * x.cols = 0 := hy'.symm
    rcases Nat.mul_eq_zero.mp hy' with h | h
    · rw [show x.rows = 0 by omega, Nat.zero_mul]
    · rw [h, Nat.mul_zero]
  case slice => exact correctOn_of_correct (slice_correct _ _ _ _ (hwf _ (by simp))) _
  case transpose => exact correctOn_of_correct (transpose_correct (hwf _ (by simp))) _
  case rowView => exact correctOn_of_correct (rowView_correct _ (hwf _ (by simp))) _
  case colView => exact correctOn_of_correct (colView_correct _ (hwf _ (by simp))) _
  case atMat => exact correctOn_of_correct (atMat_correct _ _ (hwf _ (by simp))) _
  case atVec => exact correctOn_of_correct (atVec_correct _ (hwf _ (by simp))) _
  case reshape => exact correctOn_of_correct (reshape_correct _ _ (hwf _ (by simp))) _
  case flatten => exact correctOn_of_correct (flatten_correct (hwf _ (by simp))) _
  case copy => exact correctOn_of_correct (copy_correct (hwf _ (by simp))) _
  case dropout h => exact correctOn_of_correct (dropout_correct (hwf _ (by simp)) h) _
  case rotateR h => exact correctOn_of_correct (rotateR_correct_partial (hwf _ (by simp)) h) _
  case reduceSum h => exact correctOn_of_correct ((reduceSum_correct_iff (hwf _ (by simp))).mpr h) _
  case reduceMean h => exact correctOn_of_correct ((reduceMean_correct_iff (hwf _ (by simp))).mpr h) _
  case reduceMax hm h => exact correctOn_of_correct (reduceMax_correct (hwf _ (by simp)) hm h) _
  case max x y hc h =>
    intro z hz
    have hl : x.Like y := like_of_zip (hwf _ (by simp)) hz
    exact correctOn_of_correct ((max_correct_iff (hwf _ (by simp)) hl h).mpr hc) _ z hz
  case min x y hc h =>
    intro z hz
    have hl : x.Like y := like_of_zip (hwf _ (by simp)) hz
    exact correctOn_of_correct ((min_correct_iff (hwf _ (by simp)) hl h).mpr hc) _ z hz
  case softmax hc h => exact correctOn_of_correct (softmax_correct (hwf _ (by simp)) hc h) _
  case softmaxMasked hc h => exact correctOn_of_correct (softmaxMasked_correct _ (hwf _ (by simp)) hc h) _
  case sparseMax a b c d => exact correctOn_of_correct (sparseMax_correct_partial (hwf _ (by simp)) a b c d) _
  case sparseMaxLoss => exact correctOn_of_correct (sparseMaxLoss_correct (hwf _ (by simp))) _
  case maxPooling A B hr h => exact correctOn_of_correct (maxPooling_correct_partial (hwf _ (by simp)) hr A B h) _

/-- The result of an operator that is right is a well-formed matrix. -/
theorem wf_of_correctOn {act : Nat → Prop} {f : GradFn ℝ} {xs : List (Dense ℝ)} {y : Dense ℝ}
    (h : CorrectOn act f xs) (hwf : ∀ x ∈ xs, x.WF) (hy : f.forward xs = some y) : y.WF := by
  obtain ⟨gs, -, -, h3⟩ := h y hy (zeros y.rows y.cols) ⟨zeros_WF _ _, rfl, rfl⟩
  obtain ⟨Y, h4, -⟩ := h3 (fun k _ => xs.getD k ⟨0, 0, []⟩) (fun _ _ => 0)
    (by
      intro k x hx
      have e : xs.getD k ⟨0, 0, []⟩ = x := by rw [List.getD_eq_getElem?_getD, hx]; rfl
      rw [e]
      exact const_curve (hwf x (List.mem_of_getElem? hx)))
    (fun _ _ _ => rfl) (fun _ _ _ => rfl)
  obtain ⟨h5, h6⟩ := h4.self_of_nhds
  have e : ((List.range xs.length).map fun k => xs.getD k ⟨0, 0, []⟩) = xs := by
    apply List.ext_getElem
    · simp
    · intro i h1 h2
      simp only [List.getElem_map, List.getElem_range, List.getD_eq_getElem?_getD]
      rw [List.getElem?_eq_getElem h2]; rfl
  rw [e, hy] at h5
  rw [Option.some.inj h5]
  exact h6.wf

/-- Does the backward pass send a gradient to every operand? -/
def ServesAll (f : GradFn ℝ) : Prop :=
  ∀ xs gy gs, f.backward xs gy = some gs → ∀ g ∈ gs, ∃ d, g = some d

theorem elementwise_serves (f df : ℝ → ℝ) : ServesAll (elementwise f df) := by
  intro xs gy gs h
  match xs, h with
  | [x], h =>
    simp only [elementwise] at h
    split at h
    · cases h
    · simp only [Option.bind_eq_bind, Option.bind_eq_some_iff] at h
      obtain ⟨a, -, h⟩ := h
      obtain rfl := Option.some.inj h
      simp

theorem params_serves (f df : List ℝ → ℝ → ℝ) {xs : List (Dense ℝ)} {gy : Dense ℝ} {gs : List (Option (Dense ℝ))}
    (h : (elementwiseParams f df).backward xs gy = some gs) : ∃ d, gs[0]? = some (some d) := by
  match xs, h with
  | x :: ps, h =>
    simp only [elementwiseParams] at h
    split at h
    · cases h
    · simp only [Option.bind_eq_bind, Option.bind_eq_some_iff] at h
      obtain ⟨a, -, b, -, h⟩ := h
      obtain rfl := Option.some.inj h
      exact ⟨_, rfl⟩

/-- Closes `ServesAll` for a function whose passes end in a list of gradients. -/
macro "serves" ds:ident* : tactic => `(tactic| (
  intro xs gy gs h
  $[unfold $ds at h]*
  dsimp only at h
  split at h
  all_goals first
    | (cases h; done)
    | (repeat' split at h
       all_goals first
         | (cases h; done)
         | (try simp only [Option.bind_eq_bind, Option.bind_eq_some_iff, Option.some.injEq] at h
            try simp only [exists_and_left, exists_and_right, ↓existsAndEq, and_true, true_and] at h
            grind))))

theorem add_serves : ServesAll add := by serves add
theorem sub_serves : ServesAll sub := by serves sub
theorem prod_serves : ServesAll prod := by serves prod
theorem div_serves : ServesAll div := by serves div
theorem addScalar_serves : ServesAll addScalar := by serves addScalar
theorem subScalar_serves : ServesAll subScalar := by serves subScalar
theorem reverseSubScalar_serves : ServesAll reverseSubScalar := by serves reverseSubScalar
theorem prodScalar_serves : ServesAll prodScalar := by serves prodScalar
theorem divScalar_serves : ServesAll divScalar := by serves divScalar
theorem dot_serves : ServesAll dot := by serves dot
theorem mul_serves : ServesAll mul := by serves mul
theorem mulT_serves : ServesAll mulT := by serves mulT
theorem transpose_serves : ServesAll transpose := by serves transpose
theorem flatten_serves : ServesAll flatten := by serves flatten
theorem copy_serves : ServesAll copy := by serves copy
theorem reduceSum_serves : ServesAll reduceSum := by serves reduceSum
theorem reduceMean_serves : ServesAll reduceMean := by serves reduceMean
theorem reduceMax_serves : ServesAll reduceMax := by serves reduceMax
theorem max_serves : ServesAll max := by serves max
theorem min_serves : ServesAll min := by serves min
theorem sparseMax_serves : ServesAll sparseMax := by
  intro xs gy gs h
  match xs, h with
  | [x], h =>
    simp only [sparseMax, Option.bind_eq_bind, Option.bind_eq_some_iff] at h
    obtain ⟨y, -, h⟩ := h
    split at h
    · cases h
    · simp only [Option.bind_eq_some_iff] at h
      obtain ⟨a, -, b, -, h⟩ := h
      obtain rfl := Option.some.inj h
      simp
theorem sparseMaxLoss_serves : ServesAll sparseMaxLoss := by serves sparseMaxLoss
theorem swishBR_serves : ServesAll swishBR := by serves swishBR swishB
theorem softmaxR_serves : ServesAll softmaxR := by serves softmaxR softmax
theorem softmaxMasked_serves (i : Nat) : ServesAll (softmaxMasked i) := by serves softmaxMasked
theorem logR_serves : ServesAll logR := by serves logR log
theorem slice_serves (fr fc tr tc : Int) : ServesAll (slice fr fc tr tc) := by serves slice
theorem rowView_serves (k : Int) : ServesAll (rowView k) := by serves rowView
theorem colView_serves (k : Int) : ServesAll (colView k) := by serves colView
theorem atMat_serves (i j : Int) : ServesAll (atMat i j) := by serves atMat
theorem atVec_serves (i : Int) : ServesAll (atVec i) := by serves atVec
theorem reshape_serves (r c : Int) : ServesAll (reshape r c) := by serves reshape
theorem dropout_serves (mask : Dense ℝ) : ServesAll (dropout mask) := by serves dropout
theorem rotateR_serves (k : Int) : ServesAll (rotateR k) := by serves rotateR
theorem maxPooling_serves (eps : ℝ) (r c : Nat) : ServesAll (maxPooling eps r c) := by serves maxPooling

theorem affineBackLoop_serves (gy : Dense ℝ) : ∀ (l : List (Dense ℝ)) (gs : List (Option (Dense ℝ))),
    affineBackLoop gy l = some gs → ∀ g ∈ gs, ∃ d, g = some d
  | [], gs, h => by
    obtain rfl := Option.some.inj h
    simp
  | [_], gs, h => by cases h
  | w :: x :: rest, gs, h => by
    simp only [affineBackLoop, Option.bind_eq_bind, Option.bind_eq_some_iff] at h
    obtain ⟨p, hp, q, hq, h⟩ := h
    obtain rfl := Option.some.inj h
    have ih := affineBackLoop_serves gy rest q hq
    have hp : ∀ g ∈ p, ∃ d, g = some d := by
      simp only [affineBackPair] at hp
      split at hp
      · cases hp
      · simp only [Option.bind_eq_bind, Option.bind_eq_some_iff] at hp
        obtain ⟨a, -, b, -, c, -, hp⟩ := hp
        obtain rfl := Option.some.inj hp
        simp
    intro g hg
    rcases List.mem_append.mp hg with h | h
    · exact hp g h
    · exact ih g h

theorem affine_serves : ServesAll affine := by
  intro xs gy gs h
  match xs, h with
  | b :: w1 :: x1 :: rest, h =>
    simp only [affine] at h
    split at h
    · cases h
    · simp only [Option.bind_eq_bind, Option.bind_eq_some_iff] at h
      obtain ⟨q, hq, h⟩ := h
      obtain rfl := Option.some.inj h
      intro g hg
      rcases List.mem_cons.mp hg with rfl | hg
      · exact ⟨_, rfl⟩
      · exact affineBackLoop_serves _ _ _ hq g hg

theorem concat_serves : ServesAll concat := by
  intro xs gy gs h
  simp only [concat] at h
  split at h
  · cases h
  · simp only [Option.bind_eq_bind, Option.bind_eq_some_iff] at h
    obtain ⟨q, -, h⟩ := h
    obtain rfl := Option.some.inj h
    intro g hg
    obtain ⟨d, -, rfl⟩ := List.mem_map.mp hg
    exact ⟨d, rfl⟩

theorem stackBackLoop_serves (gy : Dense ℝ) : ∀ (l : List (Dense ℝ)) (i : Nat) (gs : List (Option (Dense ℝ))),
    stackBackLoop gy l i = some gs → ∀ g ∈ gs, ∃ d, g = some d
  | [], i, gs, h => by
    obtain rfl := Option.some.inj h
    simp
  | x :: xs, i, gs, h => by
    simp only [stackBackLoop, Option.bind_eq_bind, Option.bind_eq_some_iff] at h
    obtain ⟨p, -, q, -, r, hr, h⟩ := h
    obtain rfl := Option.some.inj h
    intro g hg
    rcases List.mem_cons.mp hg with rfl | hg
    · exact ⟨_, rfl⟩
    · exact stackBackLoop_serves gy xs _ r hr g hg

theorem stack_serves : ServesAll stack := by
  intro xs gy gs h
  simp only [stack] at h
  split at h
  · cases h
  · exact stackBackLoop_serves _ _ _ _ h

theorem appendBackLoop_serves (gy : Dense ℝ) : ∀ (l : List (Dense ℝ)) (i : Nat) (gs : List (Option (Dense ℝ))),
    appendBackLoop gy l i = some gs → ∀ g ∈ gs, ∃ d, g = some d
  | [], i, gs, h => by
    obtain rfl := Option.some.inj h
    simp
  | x :: xs, i, gs, h => by
    simp only [appendBackLoop, Option.bind_eq_bind, Option.bind_eq_some_iff] at h
    obtain ⟨p, -, r, hr, h⟩ := h
    obtain rfl := Option.some.inj h
    intro g hg
    rcases List.mem_cons.mp hg with rfl | hg
    · exact ⟨_, rfl⟩
    · exact appendBackLoop_serves gy xs _ r hr g hg

theorem appendRows_serves : ServesAll appendRows := by
  intro xs gy gs h
  match xs, h with
  | x :: vs, h =>
    simp only [appendRows] at h
    split at h
    · cases h
    · simp only [Option.bind_eq_bind, Option.bind_eq_some_iff] at h
      obtain ⟨p, -, q, hq, h⟩ := h
      obtain rfl := Option.some.inj h
      intro g hg
      rcases List.mem_cons.mp hg with rfl | hg
      · exact ⟨_, rfl⟩
      · exact appendBackLoop_serves _ _ _ _ hq g hg

/-- Every operator of the list sends a gradient to each operand that may need one. -/
theorem safe_serves {act : Nat → Prop} {f : GradFn ℝ} {xs : List (Dense ℝ)} (h : Safe act f xs)
    {gy : Dense ℝ} {gs : List (Option (Dense ℝ))} (hb : f.backward xs gy = some gs) {k : Nat} (hk : act k)
    (hlt : k < gs.length) : ∃ d, gs[k]? = some (some d) := by
  have key : ServesAll f → ∃ d, gs[k]? = some (some d) := fun hs => by
    obtain ⟨d, hd⟩ := hs xs gy gs hb gs[k] (List.getElem_mem hlt)
    exact ⟨d, by rw [List.getElem?_eq_getElem hlt, hd]⟩
  cases h
  case elu a _ _ => rw [a k hk]; exact params_serves _ _ hb
  case celu a _ _ => rw [a k hk]; exact params_serves _ _ hb
  case leakyRelu a _ _ => rw [a k hk]; exact params_serves _ _ hb
  case selu a _ _ _ => rw [a k hk]; exact params_serves _ _ hb
  case softPlus a _ _ _ _ => rw [a k hk]; exact params_serves _ _ hb
  case threshold a _ _ _ => rw [a k hk]; exact params_serves _ _ hb
  case softShrink a _ _ _ => rw [a k hk]; exact params_serves _ _ hb
  case swishB => exact key swishBR_serves
  case log => exact key logR_serves
  case add => exact key add_serves
  case sub => exact key sub_serves
  case prod => exact key prod_serves
  case div => exact key div_serves
  case addScalar => exact key addScalar_serves
  case subScalar => exact key subScalar_serves
  case reverseSubScalar => exact key reverseSubScalar_serves
  case prodScalar => exact key prodScalar_serves
  case divScalar => exact key divScalar_serves
  case dot => exact key dot_serves
  case mul => exact key mul_serves
  case mulT => exact key mulT_serves
  case affine => exact key affine_serves
  case concat => exact key concat_serves
  case stack => exact key stack_serves
  case appendRows => exact key appendRows_serves
  case slice => exact key (slice_serves _ _ _ _)
  case transpose => exact key transpose_serves
  case rowView => exact key (rowView_serves _)
  case colView => exact key (colView_serves _)
  case atMat => exact key (atMat_serves _ _)
  case atVec => exact key (atVec_serves _)
  case reshape => exact key (reshape_serves _ _)
  case flatten => exact key flatten_serves
  case copy => exact key copy_serves
  case dropout => exact key (dropout_serves _)
  case rotateR => exact key (rotateR_serves _)
  case reduceSum => exact key reduceSum_serves
  case reduceMean => exact key reduceMean_serves
  case reduceMax => exact key reduceMax_serves
  case max => exact key max_serves
  case min => exact key min_serves
  case softmax => exact key softmaxR_serves
  case softmaxMasked => exact key (softmaxMasked_serves _)
  case sparseMax => exact key sparseMax_serves
  case sparseMaxLoss => exact key sparseMaxLoss_serves
  case maxPooling => exact key (maxPooling_serves _ _ _)
  all_goals exact key (elementwise_serves _ _)

end Verif.GradFn
