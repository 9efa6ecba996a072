import Verif.Props.RecordLayers
import Verif.Props.TrainRecurrent

set_option autoImplicit false
set_option linter.unusedSimpArgs false

/-!
# Training networks of layers
-/

namespace Verif.Record
open GradFn Backward Tape Dense
open scoped BigOperators

variable {s : Prop} {τ : Nat → Dense ℝ} {st : State}

/-! ### Self-attention -/

theorem list_range {α : Type} (d : α) (l : List α) : l = (List.range l.length).map fun t => l.getD t d := by
  refine List.ext_getElem (by simp) fun i h1 h2 => ?_
  simp [List.getD, h1]

theorem mul_value (n d : Nat) (K : Nat → Nat → ℝ) (q : Nat → ℝ) :
    GradFn.mul.forward [mat2 n d K, col d q] = some (col n fun t => ∑ c ∈ Finset.range d, K t c * q c) := by
  rw [col_eq_mat2 d, col_eq_mat2 n]
  exact mat2_mul n d 1 K fun i _ => q i

theorem mulT_value (n e : Nat) (X : Nat → Nat → ℝ) (w : Nat → ℝ) :
    mulT.forward [mat2 n e X, col n w] = some (col e fun j => ∑ t ∈ Finset.range n, w t * X t j) := by
  obtain ⟨h1, h2⟩ := mulT_spec (mat2_WF n e X) (col_WF n w)
  obtain ⟨y, hy⟩ := Option.isSome_iff_exists.mp (h1.mpr ⟨rfl, rfl⟩)
  obtain ⟨h3, h4, h5, h6⟩ := h2 y hy
  refine Eq.trans hy ?_
  congr 1
  rw [col_eq_mat2]
  refine eq_mat2 h3 h4 h5 fun i hi j hj => ?_
  obtain rfl : j = 0 := by omega
  rw [h6 i hi]
  refine Finset.sum_congr rfl fun t ht => ?_
  have ht : t < n := Finset.mem_range.mp ht
  have hi' : i < e := hi
  rw [mat2_el _ ht hi', col_eq_mat2, mat2_el _ ht (Nat.zero_lt_one), mul_comm]

theorem attend_sim {scale k v q n d e : Nat} (hn : 0 < n) {f : ℝ} {K X : Nat → Nat → ℝ} {Q : Nat → ℝ}
    (h1 : V st scale (scalar f)) (h2 : D st k (mat2 n d K)) (h3 : D st v (mat2 n e X)) (h4 : V st q (col d Q)) :
    Sim s τ st (attend scale k v q) (some (col e fun j => ∑ t ∈ Finset.range n, weight d n f K Q t * X t j)) (W true) := by
  refine bindV (.cons h2.v (.cons h4 .nil)) (mul_value n d K Q) (fun _ _ => .mul) fun st₁ kq hkq => ?_
  replace h1 := h1.mono st₁; replace h3 := h3.mono st₁
  refine bindV (.cons hkq (.cons h1 .nil)) (prodScalar_col _ _ _) (fun _ _ => .prodScalar) fun st₂ sc hsc => ?_
  replace h3 := h3.mono st₂
  refine bindV (.cons hsc .nil) (softmax_value hn _) (fun _ act => softmax_safe hn _ act) fun st₃ w hw => ?_
  replace h3 := h3.mono st₃
  exact callW (.cons h3.v (.cons hw .nil)) (mulT_value n e X _) (fun _ => ⟨v, by simp, _, h3⟩) fun _ _ => .mulT

theorem stack_value {n d : Nat} (hn : 0 < n) {l : List (Nat → ℝ)} (hl : l.length = n) :
    GradFn.stack.forward (l.map (col d)) = some (mat2 n d fun t => l.getD t 0) := by
  subst hl
  conv_lhs => rw [list_range (0 : Nat → ℝ) l, List.map_map]
  exact stack_cols hn _

theorem forall₂_mem {b : Bool} {is : List Nat} {xs : List (Dense ℝ)} (h : List.Forall₂ (W true st) is xs) (hne : xs ≠ []) :
    b = true → ∃ i ∈ is, ∃ v, D st i v := by
  intro _
  cases h with
  | nil => exact absurd rfl hne
  | cons h _ => exact ⟨_, by simp, _, h.d⟩

theorem selfAttention_sim {k i d e : Nat} {f : ℝ} (hp : Params st τ k 6)
    (hq : Mat (τ k) d i ∧ Mat (τ (k + 1)) d 1) (hk : Mat (τ (k + 2)) d i ∧ Mat (τ (k + 3)) d 1)
    (hv : Mat (τ (k + 4)) e i ∧ Mat (τ (k + 5)) e 1) {b : Bool} {is : List Nat} {xs : List (Nat → ℝ)} (hne : xs ≠ [])
    (h : List.Forall₂ (W b st) is (xs.map (col i))) :
    Sim s τ st (selfAttention k (k + 1) (k + 2) (k + 3) (k + 4) (k + 5) f is)
      (some (((Net.attention f i d e).apply τ k xs).map (col e))) (fun st => List.Forall₂ (W true st)) := by
  have hn : 0 < xs.length := List.length_pos_iff.mpr hne
  have hmap : ∀ g : (Nat → ℝ) → Nat → ℝ, (xs.map g).map (col d) ≠ [] := by simpa using hne
  have hmap' : ∀ g : (Nat → ℝ) → Nat → ℝ, (xs.map g).map (col e) ≠ [] := by simpa using hne
  refine bindSome (linear_sim hq.1 hq.2 (hp.at 0 (by omega)) (hp.at 1 (by omega)) h) fun st₁ qs hqs => ?_
  replace hp := hp.mono st₁; replace h := forall₂_mono h st₁
  refine bindSome (linear_sim hk.1 hk.2 (hp.at 2 (by omega)) (hp.at 3 (by omega)) h) fun st₂ ks hks => ?_
  replace hp := hp.mono st₂; replace h := forall₂_mono h st₂; replace hqs := forall₂_mono hqs st₂
  refine bindSome (linear_sim hv.1 hv.2 (hp.at 4 (by omega)) (hp.at 5 (by omega)) h) fun st₃ vs hvs => ?_
  replace hqs := forall₂_mono hqs st₃; replace hks := forall₂_mono hks st₃
  refine bindD (forall₂_v hks) (stack_value hn (by simp)) (forall₂_mem (b := true) hks (hmap _) rfl) (fun _ _ => .stack)
    fun st₄ pk hpk => ?_
  replace hqs := forall₂_mono hqs st₄; replace hvs := forall₂_mono hvs st₄
  refine bindD (forall₂_v hvs) (stack_value hn (by simp)) (forall₂_mem (b := true) hvs (hmap' _) rfl) (fun _ _ => .stack)
    fun st₅ pv hpv => ?_
  replace hqs := forall₂_mono hqs st₅; replace hpk := hpk.mono st₅
  refine Sim.bindConst fun st₆ sc hsc => ?_
  replace hqs := forall₂_mono hqs st₆; replace hpk := hpk.mono st₆; replace hpv := hpv.mono st₆
  have hget : ∀ (g : (Nat → ℝ) → Nat → ℝ), ∀ t < xs.length, (xs.map g).getD t 0 = g (xs.getD t 0) := by
    intro g t ht
    simp [List.getD, ht]
  rw [mat2_congr (fun t ht c _ => by rw [hget _ t ht]) (g := fun t => affineMap i (τ (k + 2)) (τ (k + 3)) (xs.getD t 0))] at hpk
  rw [mat2_congr (fun t ht c _ => by rw [hget _ t ht]) (g := fun t => affineMap i (τ (k + 4)) (τ (k + 5)) (xs.getD t 0))] at hpv
  have := each_sim (s := s) (θ := τ) (b := true) (b' := true) (e := e) (f := attend sc pk pv)
    (g := fun Q j => ∑ t ∈ Finset.range xs.length, weight d xs.length f
      (fun t => affineMap i (τ (k + 2)) (τ (k + 3)) (xs.getD t 0)) Q t *
        affineMap i (τ (k + 4)) (τ (k + 5)) (xs.getD t 0) j)
    (M := fun st => V st sc (scalar f) ∧
      D st pk (mat2 xs.length d fun t => affineMap i (τ (k + 2)) (τ (k + 3)) (xs.getD t 0)) ∧
      D st pv (mat2 xs.length e fun t => affineMap i (τ (k + 4)) (τ (k + 5)) (xs.getD t 0))) (P := fun _ => True)
    (fun st st' h => ⟨h.1.mono st', h.2.1.mono st', h.2.2.mono st'⟩)
    (fun st q Q hm _ hq => attend_sim hn hm.1 hm.2.1 hm.2.2 hq.v) ⟨hsc, hpk, hpv⟩ (fun _ _ _ => trivial) hqs
  rw [List.map_map (l := xs)] at this
  exact this

/-! ### Self-attention with the causal mask -/

theorem seen_sum (x : Nat → ℝ) {i n : Nat} (hi : i < n) :
    ∑ k ∈ Finset.range n, seen i (x k) k = ∑ k ∈ Finset.range (i + 1), Real.exp (x k) := by
  have hs : Finset.range (i + 1) ⊆ Finset.range n := Finset.range_subset_range.mpr (by omega)
  rw [← Finset.sum_subset hs]
  · refine Finset.sum_congr rfl fun k hk => ?_
    rw [seen, if_pos (by have := Finset.mem_range.mp hk; omega)]
  · intro k _ hk
    rw [seen, if_neg]
    simp only [Finset.mem_range] at hk
    omega

theorem masked_value {n i : Nat} (hi : i < n) (x : Nat → ℝ) :
    (softmaxMasked i).forward [col n x] = some (col n fun j =>
      if j ≤ i then Real.exp (x j) / ∑ c ∈ Finset.range (i + 1), Real.exp (x c) else 0) := by
  rw [softmaxMasked_eq i (col_WF n x) rfl (by rw [← List.length_pos_iff, col_length]; omega)]
  simp only [maskedCol, col_length]
  have e : ∀ j < n, (col n x).val j = x j := fun j hj => col_val x hj
  rw [Finset.sum_congr rfl fun k hk => by rw [e k (Finset.mem_range.mp hk)], seen_sum x hi]
  simp only [col, Option.some.injEq, Dense.mk.injEq, true_and]
  refine List.map_congr_left fun j hj => ?_
  have := e j (List.mem_range.mp hj)
  simp only [col] at this
  rw [this, seen]
  split
  · rfl
  · exact zero_div _

theorem attendCausal_sim {scale k v i q n d e : Nat} (hi : i < n) {f : ℝ} {K X : Nat → Nat → ℝ} {Q : Nat → ℝ}
    (h1 : V st scale (scalar f)) (h2 : D st k (mat2 n d K)) (h3 : D st v (mat2 n e X)) (h4 : V st q (col d Q)) :
    Sim s τ st (attendCausal scale k v i q)
      (some (col e fun j => ∑ u ∈ Finset.range (i + 1), weight d (i + 1) f K Q u * X u j)) (W true) := by
  refine bindV (.cons h2.v (.cons h4 .nil)) (mul_value n d K Q) (fun _ _ => .mul) fun st₁ kq hkq => ?_
  replace h1 := h1.mono st₁; replace h3 := h3.mono st₁
  refine bindV (.cons hkq (.cons h1 .nil)) (prodScalar_col _ _ _) (fun _ _ => .prodScalar) fun st₂ sc hsc => ?_
  replace h3 := h3.mono st₂
  refine bindV (.cons hsc .nil) (masked_value hi _)
    (fun _ act => .softmaxMasked rfl (by rw [← List.length_pos_iff, col_length]; omega)) fun st₃ w hw => ?_
  replace h3 := h3.mono st₃
  refine callW (.cons h3.v (.cons hw .nil)) ((mulT_value n e X _).trans ?_) (fun _ => ⟨v, by simp, _, h3⟩) fun _ _ => .mulT
  refine congrArg some (col_congr fun j _ => ?_)
  rw [← Finset.sum_subset (Finset.range_subset_range.mpr (by omega : i + 1 ≤ n))]
  · refine Finset.sum_congr rfl fun u hu => ?_
    rw [if_pos (by have := Finset.mem_range.mp hu; omega)]
    rfl
  · intro u _ hu
    simp only [Finset.mem_range] at hu
    rw [if_neg (by omega), zero_mul]

theorem eachFrom_sim {f : Nat → Nat → B Nat} {d e n : Nat} {g : Nat → (Nat → ℝ) → Nat → ℝ} {b b' : Bool} {M : State → Prop}
    (hM : ∀ st st', M st → M (st ++ st'))
    (hf : ∀ st t i x, M st → t < n → W b st i (col d x) → Sim s τ st (f t i) (some (col e (g t x))) (W b')) :
    ∀ {is : List Nat} {xs : List (Nat → ℝ)} {t : Nat} {st : State}, M st → t + xs.length ≤ n →
      List.Forall₂ (W b st) is (xs.map (col d)) →
      Sim s τ st (eachFrom f t is) (some ((List.range xs.length).map fun u => col e (g (t + u) (xs.getD u 0))))
        (fun st => List.Forall₂ (W b' st))
  | [], [], t, st, _, _, _ => Sim.pure .nil
  | i :: is, x :: xs, t, st, hm, ht, .cons hi his => by
    simp only [List.length_cons] at ht
    refine bindSome (hf st t i x hm (by omega) hi) fun st₁ y hy => ?_
    refine bindSome (eachFrom_sim hM hf (t := t + 1) (hM _ _ hm) (by omega) (forall₂_mono his st₁)) fun st₂ ys hys => ?_
    refine Sim.pure ?_
    rw [List.length_cons, List.range_succ_eq_map, List.map_cons, List.map_map]
    refine .cons (hy.mono st₂) ?_
    refine (List.map_congr_left fun u _ => ?_) ▸ hys
    simp only [Function.comp, Nat.succ_eq_add_one, List.getD_cons_succ]
    rw [show t + 1 + u = t + (u + 1) by omega]

theorem causalAttention_sim {k i d e : Nat} {f : ℝ} (hp : Params st τ k 6)
    (hq : Mat (τ k) d i ∧ Mat (τ (k + 1)) d 1) (hk : Mat (τ (k + 2)) d i ∧ Mat (τ (k + 3)) d 1)
    (hv : Mat (τ (k + 4)) e i ∧ Mat (τ (k + 5)) e 1) {b : Bool} {is : List Nat} {xs : List (Nat → ℝ)} (hne : xs ≠ [])
    (h : List.Forall₂ (W b st) is (xs.map (col i))) :
    Sim s τ st (causalAttention k (k + 1) (k + 2) (k + 3) (k + 4) (k + 5) f is)
      (some (((Net.causal f i d e).apply τ k xs).map (col e))) (fun st => List.Forall₂ (W true st)) := by
  have hn : 0 < xs.length := List.length_pos_iff.mpr hne
  have hmap : ∀ g : (Nat → ℝ) → Nat → ℝ, (xs.map g).map (col d) ≠ [] := by simpa using hne
  have hmap' : ∀ g : (Nat → ℝ) → Nat → ℝ, (xs.map g).map (col e) ≠ [] := by simpa using hne
  refine bindSome (linear_sim hq.1 hq.2 (hp.at 0 (by omega)) (hp.at 1 (by omega)) h) fun st₁ qs hqs => ?_
  replace hp := hp.mono st₁; replace h := forall₂_mono h st₁
  refine bindSome (linear_sim hk.1 hk.2 (hp.at 2 (by omega)) (hp.at 3 (by omega)) h) fun st₂ ks hks => ?_
  replace hp := hp.mono st₂; replace h := forall₂_mono h st₂; replace hqs := forall₂_mono hqs st₂
  refine bindSome (linear_sim hv.1 hv.2 (hp.at 4 (by omega)) (hp.at 5 (by omega)) h) fun st₃ vs hvs => ?_
  replace hqs := forall₂_mono hqs st₃; replace hks := forall₂_mono hks st₃
  refine bindD (forall₂_v hks) (stack_value hn (by simp)) (forall₂_mem (b := true) hks (hmap _) rfl) (fun _ _ => .stack)
    fun st₄ pk hpk => ?_
  replace hqs := forall₂_mono hqs st₄; replace hvs := forall₂_mono hvs st₄
  refine bindD (forall₂_v hvs) (stack_value hn (by simp)) (forall₂_mem (b := true) hvs (hmap' _) rfl) (fun _ _ => .stack)
    fun st₅ pv hpv => ?_
  replace hqs := forall₂_mono hqs st₅; replace hpk := hpk.mono st₅
  refine Sim.bindConst fun st₆ sc hsc => ?_
  replace hqs := forall₂_mono hqs st₆; replace hpk := hpk.mono st₆; replace hpv := hpv.mono st₆
  have hget : ∀ (g : (Nat → ℝ) → Nat → ℝ), ∀ t < xs.length, (xs.map g).getD t 0 = g (xs.getD t 0) := by
    intro g t ht
    simp [List.getD, ht]
  rw [mat2_congr (fun t ht c _ => by rw [hget _ t ht]) (g := fun t => affineMap i (τ (k + 2)) (τ (k + 3)) (xs.getD t 0))] at hpk
  rw [mat2_congr (fun t ht c _ => by rw [hget _ t ht]) (g := fun t => affineMap i (τ (k + 4)) (τ (k + 5)) (xs.getD t 0))] at hpv
  have hM : ∀ st st', (V st sc (scalar f) ∧
      D st pk (mat2 xs.length d fun t => affineMap i (τ (k + 2)) (τ (k + 3)) (xs.getD t 0)) ∧
      D st pv (mat2 xs.length e fun t => affineMap i (τ (k + 4)) (τ (k + 5)) (xs.getD t 0))) →
      (V (st ++ st') sc (scalar f) ∧
      D (st ++ st') pk (mat2 xs.length d fun t => affineMap i (τ (k + 2)) (τ (k + 3)) (xs.getD t 0)) ∧
      D (st ++ st') pv (mat2 xs.length e fun t => affineMap i (τ (k + 4)) (τ (k + 5)) (xs.getD t 0))) :=
    fun st st' h => ⟨h.1.mono st', h.2.1.mono st', h.2.2.mono st'⟩
  have hlen : qs.length = xs.length := by simpa using hqs.length_eq
  by_cases h1 : 1 < qs.length
  · rw [if_pos h1]
    have := eachFrom_sim (s := s) (τ := τ) (b := true) (b' := true) (e := e) (n := xs.length) (t := 0)
      (g := fun t Q j => ∑ u ∈ Finset.range (t + 1), weight d (t + 1) f
        (fun t => affineMap i (τ (k + 2)) (τ (k + 3)) (xs.getD t 0)) Q u *
          affineMap i (τ (k + 4)) (τ (k + 5)) (xs.getD u 0) j)
      hM (fun st t q Q hm ht hq => attendCausal_sim ht hm.1 hm.2.1 hm.2.2 hq.v) ⟨hsc, hpk, hpv⟩ (by simp) hqs
    refine Eq.mp (congrArg (fun l => Sim s τ _ _ (some l) _) ?_) this
    simp only [Net.apply, List.map_map, List.length_map]
    refine List.map_congr_left fun t ht => ?_
    simp only [Function.comp, Nat.zero_add]
    rw [hget _ t (List.mem_range.mp ht)]
  · rw [if_neg h1]
    have := each_sim (s := s) (θ := τ) (b := true) (b' := true) (e := e) (f := attend sc pk pv)
      (g := fun Q j => ∑ t ∈ Finset.range xs.length, weight d xs.length f
        (fun t => affineMap i (τ (k + 2)) (τ (k + 3)) (xs.getD t 0)) Q t *
          affineMap i (τ (k + 4)) (τ (k + 5)) (xs.getD t 0) j) (P := fun _ => True)
      hM (fun st q Q hm _ hq => attend_sim hn hm.1 hm.2.1 hm.2.2 hq.v) ⟨hsc, hpk, hpv⟩ (fun _ _ _ => trivial) hqs
    refine Eq.mp (congrArg (fun l => Sim s τ _ _ (some l) _) ?_) this
    obtain ⟨x, rfl⟩ : ∃ x, xs = [x] := List.length_eq_one_iff.mp (by omega)
    simp [Net.apply]

/-! ### Both directions -/

theorem merge_sim {mode : Recurrent.Merge} {o o' oo : Nat} {g : (Nat → ℝ) → (Nat → ℝ) → Nat → ℝ}
    (hm : match mode with
      | .concat => oo = o + o' ∧ g = fun a b j => if j < o then a j else b (j - o)
      | .sum => o' = o ∧ oo = o ∧ g = fun a b j => a j + b j
      | .prod => o' = o ∧ oo = o ∧ g = fun a b j => a j * b j
      | .avg => o' = o ∧ oo = o ∧ g = fun a b j => (a j + b j) / 2)
    {b b' : Bool} {i j : Nat} {x y : Nat → ℝ} (hi : W b st i (col o x)) (hj : W b' st j (col o' y)) :
    Sim s τ st (merge mode i j) (some (col oo (g x y))) (W (b || b')) := by
  have hd : (b || b') = true → ∃ k ∈ [i, j], ∃ v, D st k v := by
    intro h
    rcases (Bool.or_eq_true _ _).mp h with h | h
    · exact ⟨i, by simp, _, hi.dOf h⟩
    · exact ⟨j, by simp, _, hj.dOf h⟩
  cases mode with
  | concat =>
    obtain ⟨rfl, rfl⟩ := hm
    exact callW (.cons hi.v (.cons hj.v .nil)) (BiRNN.merge_concat o o' x y) hd fun _ _ => .concat (by simp)
  | sum =>
    obtain ⟨rfl, rfl, rfl⟩ := hm
    exact callW (.cons hi.v (.cons hj.v .nil)) (add_col _ _ _) hd fun _ _ => .add
  | prod =>
    obtain ⟨rfl, rfl, rfl⟩ := hm
    exact callW (.cons hi.v (.cons hj.v .nil)) (prod_col _ _ _) hd fun _ _ => .prod
  | avg =>
    obtain ⟨rfl, rfl, rfl⟩ := hm
    refine bindSome (callW (.cons hi.v (.cons hj.v .nil)) (add_col _ _ _) hd fun _ _ => .add) fun st₁ a ha => ?_
    refine Sim.bindConst fun st₂ c hc => ?_
    replace ha := ha.mono st₂
    refine callW (.cons ha.v (.cons hc .nil)) ((prodScalar_col _ _ _).trans ?_) (fun h => ⟨a, by simp, _, ha.dOf h⟩)
      fun _ _ => .prodScalar
    exact congrArg some (col_congr fun i _ => by norm_num; ring)

theorem forall₂_get {b : Bool} {is : List Nat} {xs : List (Dense ℝ)} (h : List.Forall₂ (W b st) is xs) {t : Nat}
    {x : Dense ℝ} (hx : xs[t]? = some x) : ∃ i, is[t]? = some i ∧ W b st i x := by
  induction h generalizing t with
  | nil => simp at hx
  | cons h _ ih =>
    cases t with
    | zero =>
      obtain rfl := Option.some.inj hx
      exact ⟨_, rfl, h⟩
    | succ t => exact ih (t := t) (by simpa using hx)

theorem mergeLoop_sim {mode : Recurrent.Merge} {o o' oo n : Nat} {g : (Nat → ℝ) → (Nat → ℝ) → Nat → ℝ}
    (hm : match mode with
      | .concat => oo = o + o' ∧ g = fun a b j => if j < o then a j else b (j - o)
      | .sum => o' = o ∧ oo = o ∧ g = fun a b j => a j + b j
      | .prod => o' = o ∧ oo = o ∧ g = fun a b j => a j * b j
      | .avg => o' = o ∧ oo = o ∧ g = fun a b j => (a j + b j) / 2)
    {b b' : Bool} {pos neg : List Nat} {ps ns : List (Nat → ℝ)} (hlp : ps.length = n) (hln : ns.length = n) :
    ∀ {is : List Nat} {st : State}, (∀ i ∈ is, i < n) → List.Forall₂ (W b st) pos (ps.map (col o)) →
      List.Forall₂ (W b' st) neg (ns.map (col o')) →
      Sim s τ st (mergeLoop mode pos neg is)
        (some (is.map fun t => col oo (g (ps.getD t 0) (ns.getD (n - 1 - t) 0)))) (fun st => List.Forall₂ (W (b || b') st))
  | [], st, _, _, _ => Sim.pure .nil
  | i :: is, st, hi, hp, hq => by
    have h1 : i < n := hi i (by simp)
    have hlen : pos.length = n := by rw [hp.length_eq, List.length_map, hlp]
    obtain ⟨a, ha, hwa⟩ := forall₂_get hp (t := i) (x := col o (ps.getD i 0))
      (by simp [List.getD, hlp, h1])
    obtain ⟨c, hc, hwc⟩ := forall₂_get hq (t := n - 1 - i) (x := col o' (ns.getD (n - 1 - i) 0))
      (by simp [List.getD, hln, show n - 1 - i < n by omega])
    unfold mergeLoop
    rw [hlen, ha, hc]
    refine bindSome (merge_sim hm hwa hwc) fun st₁ y hy => ?_
    refine bindSome (mergeLoop_sim hm hlp hln (fun i h => hi i (by simp [h])) (forall₂_mono hp st₁) (forall₂_mono hq st₁))
      fun st₂ ys hys => ?_
    exact Sim.pure (.cons (hy.mono st₂) hys)

theorem zip_reverse {n oo : Nat} (g : (Nat → ℝ) → (Nat → ℝ) → Nat → ℝ) {ps ns : List (Nat → ℝ)} (hlp : ps.length = n)
    (hln : ns.length = n) : ((List.range n).map fun t => col oo (g (ps.getD t 0) (ns.getD (n - 1 - t) 0))) =
      (List.zipWith g ps ns.reverse).map (col oo) := by
  refine List.ext_getElem (by simp [hlp, hln]) fun t h1 h2 => ?_
  simp only [List.length_map, List.length_range] at h1
  simp [List.getD, hlp, hln, h1, show n - 1 - t < n by omega]

theorem birnn_sim {mode : Recurrent.Merge} {i o o' oo n : Nat} {g : (Nat → ℝ) → (Nat → ℝ) → Nat → ℝ}
    (hm : match mode with
      | .concat => oo = o + o' ∧ g = fun a b j => if j < o then a j else b (j - o)
      | .sum => o' = o ∧ oo = o ∧ g = fun a b j => a j + b j
      | .prod => o' = o ∧ oo = o ∧ g = fun a b j => a j * b j
      | .avg => o' = o ∧ oo = o ∧ g = fun a b j => (a j + b j) / 2)
    {c b b' : Bool} {p q : List Nat → B (List Nat)} {is : List Nat} {xs ps ns : List (Nat → ℝ)} {M : State → Prop}
    (hM : ∀ st st', M st → M (st ++ st')) (hst : M st) (hlp : ps.length = n) (hln : ns.length = n)
    (hx : List.Forall₂ (W c st) is (xs.map (col i)))
    (hp : ∀ st is, M st → List.Forall₂ (W c st) is (xs.map (col i)) →
      Sim s τ st (p is) (some (ps.map (col o))) (fun st => List.Forall₂ (W b st)))
    (hq : ∀ st is, M st → List.Forall₂ (W c st) is (xs.reverse.map (col i)) →
      Sim s τ st (q is) (some (ns.map (col o'))) (fun st => List.Forall₂ (W b' st))) :
    Sim s τ st (birnn mode p q is) (some ((List.zipWith g ps ns.reverse).map (col oo)))
      (fun st => List.Forall₂ (W (b || b') st)) := by
  refine bindSome (hp st is hst hx) fun st₁ pos hpos => ?_
  rw [BiRNN.reversed_eq]
  refine bindSome (hq _ is.reverse (hM _ st₁ hst) ?_) fun st₂ neg hneg => ?_
  · rw [List.map_reverse]
    exact List.rel_reverse (forall₂_mono hx st₁)
  have hlen : pos.length = n := by rw [hpos.length_eq, List.length_map, hlp]
  rw [hlen, ← zip_reverse g hlp hln]
  exact mergeLoop_sim hm hlp hln (fun i h => List.mem_range.mp h) (forall₂_mono hpos st₂) hneg

/-! ### Residual connections -/

theorem addLoop_sim {d : Nat} {b b' : Bool} : ∀ {ps is : List Nat} {ys xs : List (Nat → ℝ)} {st : State},
    ys.length = xs.length → List.Forall₂ (W b st) ps (ys.map (col d)) → List.Forall₂ (W b' st) is (xs.map (col d)) →
    Sim s τ st (addLoop ps is) (some ((List.zipWith (fun y x j => y j + x j) ys xs).map (col d)))
      (fun st => List.Forall₂ (W (b || b') st))
  | [], _, [], xs, st, _, _, _ => Sim.pure (by simp)
  | _ :: _, [], _ :: _, [], st, hl, _, _ => absurd hl (by simp)
  | p :: ps, i :: is, y :: ys, x :: xs, st, hl, .cons hp hps, .cons hi his => by
    have hd : (b || b') = true → ∃ k ∈ [p, i], ∃ v, D st k v := by
      intro h
      rcases (Bool.or_eq_true _ _).mp h with h | h
      · exact ⟨p, by simp, _, hp.dOf h⟩
      · exact ⟨i, by simp, _, hi.dOf h⟩
    refine bindSome (callW (.cons hp.v (.cons hi.v .nil)) (add_col _ _ _) hd fun _ _ => .add) fun st₁ z hz => ?_
    refine bindSome (addLoop_sim (by simpa using hl) (forall₂_mono hps st₁) (forall₂_mono his st₁)) fun st₂ zs hzs => ?_
    exact Sim.pure (.cons (hz.mono st₂) hzs)

/-! ### Networks -/

theorem apply_length {i o : Nat} (N : Net i o) : ∀ (k : Nat) (xs : List (Nat → ℝ)), (N.apply τ k xs).length = xs.length := by
  induction N with
  | seq p q ihp ihq => intro k xs; rw [Net.apply, ihq, ihp]
  | residual p ih => intro k xs; rw [Net.apply, List.length_zipWith, ih, Nat.min_self]
  | sum p q ihp ihq | prod p q ihp ihq | avg p q ihp ihq | concat p q ihp ihq =>
    intro k xs; rw [Net.apply, List.length_zipWith, List.length_reverse, ihp, ihq, List.length_reverse, Nat.min_self]
  | _ => intro k xs; simp [Net.apply]

theorem forward_lift {c : B (List Nat)} {m : Option (List (Dense ℝ))} {r : List (Dense ℝ)} (b : Bool)
    (h : Sim s τ st c m Outputs) (hm : m = some r) : Sim s τ st c (some r) (fun st => List.Forall₂ (W b st)) := by
  subst hm
  exact h.weaken fun st' a b' _ h => outputs_w h b

/-- The parameters of a network are well-formed. -/
def WFs (τ : Nat → Dense ℝ) (k n : Nat) : Prop := ∀ x, k ≤ x → x < k + n → (τ x).WF

theorem WFs.mat {k n j r c : Nat} (h : WFs τ k n) (hd : Dims (τ (k + j)) r c) (hj : j < n) : Mat (τ (k + j)) r c :=
  ⟨h _ (by omega) (by omega), hd.1, hd.2⟩

theorem WFs.gate {k n j i o : Nat} (h : WFs τ k n) (hd : GateDims i o τ (k + j)) (hj : j + 2 < n) :
    Recurrent.GateOK i o (gateOf τ (k + j)) :=
  ⟨⟨h _ (by omega) (by omega), hd.w⟩, ⟨h (k + j + 1) (by omega) (by omega), hd.wRec⟩,
    ⟨h (k + j + 2) (by omega) (by omega), hd.b⟩⟩

theorem Params.gate {k n : Nat} (h : Params st τ k n) (j : Nat) (hj : j + 2 < n) :
    IsGate st (gateAt (k + j)) (gateOf τ (k + j)) :=
  ⟨h (k + j) (by omega) (by omega), h (k + j + 1) (by omega) (by omega), h (k + j + 2) (by omega) (by omega)⟩

/-- The recorded network computes the function, and its outputs require gradients if it has parameters or its inputs
require gradients. -/
theorem net_sim {i o : Nat} (N : Net i o) : ∀ {k : Nat} {b : Bool} {st : State} {is : List Nat} {xs : List (Nat → ℝ)},
    xs ≠ [] → Params st τ k N.size → WFs τ k N.size → N.Fits τ k → (s → N.Regular τ k xs) →
    List.Forall₂ (W b st) is (xs.map (col i)) →
    Sim s τ st (N.code k is) (some ((N.apply τ k xs).map (col o)))
      (fun st => List.Forall₂ (W (b || decide (0 < N.size)) st)) := by
  induction N with
  | linear i o =>
    intro k b st is xs _ hp hw hf _ hx
    simp only [Net.size] at hp hw
    refine (linear_sim (hw.mat (j := 0) hf.1 (by decide)) (hw.mat hf.2 (by decide)) (hp.at 0 (by decide))
      (hp.at 1 (by decide)) hx).weaken fun _ _ _ _ h => forall₂_le h fun _ => rfl
  | act p d =>
    intro k b st is xs _ hp hw hf hr hx
    exact (activate_sim hr hx).weaken fun _ _ _ _ h => forall₂_le h fun h => by simpa [Net.size] using h
  | softmax d =>
    intro k b st is xs _ hp hw hf hr hx
    exact (softmaxes_sim hf hx).weaken fun _ _ _ _ h => forall₂_le h fun h => by simpa [Net.size] using h
  | layerNorm eps d =>
    intro k b st is xs _ hp hw hf hr hx
    simp only [Net.size] at hp hw
    refine (each_sim (M := fun st => Params st τ k 2) (fun st st' h => h.mono st') ?_ hp hr hx).weaken
      fun _ _ _ _ h => forall₂_le (b := true) h fun _ => rfl
    intro st i x hm hx hi
    exact layerNorm_sim (hw.mat (j := 0) hf.1 (by decide)) (hw.mat hf.2 (by decide)) (hm.at 0 (by decide))
      (hm.at 1 (by decide)) hi.v hx
  | rmsNorm d =>
    intro k b st is xs _ hp hw hf hr hx
    simp only [Net.size] at hp hw
    refine (each_sim (M := fun st => Params st τ k 2) (fun st st' h => h.mono st') ?_ hp hr hx).weaken
      fun _ _ _ _ h => forall₂_le (b := true) h fun _ => rfl
    intro st i x hm hx hi
    exact rmsNorm_sim (hw.mat (j := 0) hf.1 (by decide)) (hw.mat hf.2 (by decide)) (hm.at 0 (by decide))
      (hm.at 1 (by decide)) hi.v hx
  | logSoftmax d =>
    intro k b st is xs _ hp hw hf hr hx
    exact (logSoftmaxes_sim hf hx).weaken fun _ _ _ _ h => forall₂_le h fun h => by simpa [Net.size] using h
  | layerNormSimple d =>
    intro k b st is xs _ hp hw hf hr hx
    refine (each_sim (M := fun _ => True) (fun _ _ _ => trivial) ?_ trivial hr hx).weaken
      fun _ _ _ _ h => forall₂_le (b := b) h fun h => by simpa [Net.size] using h
    intro st i x _ hx hi
    exact layerNormSimple_sim hi hx
  | fixNorm d =>
    intro k b st is xs _ hp hw hf hr hx
    refine (each_sim (M := fun _ => True) (fun _ _ _ => trivial) ?_ trivial hr hx).weaken
      fun _ _ _ _ h => forall₂_le (b := b) h fun h => by simpa [Net.size] using h
    intro st i x _ hx hi
    exact fixNorm_sim hi hx
  | scaleNorm d =>
    intro k b st is xs _ hp hw hf hr hx
    simp only [Net.size] at hp hw
    refine (each_sim (M := fun st => Params st τ k 1) (fun st st' h => h.mono st') ?_ hp hr hx).weaken
      fun _ _ _ _ h => forall₂_le (b := true) h fun _ => rfl
    intro st i x hm hx hi
    exact scaleNorm_sim (hw.mat (j := 0) hf (by decide)) (hm.at 0 (by decide)) hi.v hx
  | sqrDist i r =>
    intro k b st is xs _ hp hw hf hr hx
    simp only [Net.size] at hp hw
    refine (each_sim (M := fun st => Params st τ k 1) (P := fun _ => True) (fun st st' h => h.mono st') ?_ hp
      (fun _ _ _ => trivial) hx).weaken fun _ _ _ _ h => forall₂_le (b := true) h fun _ => rfl
    intro st i x hm _ hi
    exact sqrDist_sim (hw.mat (j := 0) hf (by decide)) (hm.at 0 (by decide)) hi.v
  | causal f i d e =>
    intro k b st is xs hne hp hw hf _ hx
    simp only [Net.size] at hp hw
    refine (causalAttention_sim hp ⟨hw.mat (j := 0) hf.1 (by decide), hw.mat hf.2.1 (by decide)⟩
      ⟨hw.mat hf.2.2.1 (by decide), hw.mat hf.2.2.2.1 (by decide)⟩
      ⟨hw.mat hf.2.2.2.2.1 (by decide), hw.mat hf.2.2.2.2.2 (by decide)⟩ hne hx).weaken
      fun _ _ _ _ h => forall₂_le h fun _ => rfl
  | highway p d =>
    intro k b st is xs _ hp hw hf hr hx
    simp only [Net.size] at hp hw
    refine (each_sim (M := fun st => Params st τ k 4) (fun st st' h => h.mono st') ?_ hp hr hx).weaken
      fun _ _ _ _ h => forall₂_le (b := true) h fun _ => rfl
    intro st i x hm hx hi
    exact highway_sim (hw.mat (j := 0) hf.1 (by decide)) (hw.mat hf.2.1 (by decide)) (hw.mat hf.2.2.1 (by decide))
      (hw.mat hf.2.2.2 (by decide)) (hm.at 0 (by decide)) (hm.at 1 (by decide)) (hm.at 2 (by decide)) (hm.at 3 (by decide))
      hi.v hx
  | srn i o =>
    intro k b st is xs _ hp hw hf _ hx
    simp only [Net.size] at hp hw
    refine forward_lift _ (srn_forward (hp.gate 0 (by decide)) (forall₂_v hx)) ?_
    rw [Recurrent.srn_forward (hw.gate (j := 0) hf (by decide)), Net.apply, List.map_map]; rfl
  | gru i o =>
    intro k b st is xs _ hp hw hf _ hx
    simp only [Net.size] at hp hw
    refine forward_lift _ (gru_forward (M := ⟨gateOf τ k, gateOf τ (k + 3), gateOf τ (k + 6)⟩) ⟨hp.gate 0 (by decide), hp.gate 3 (by decide), hp.gate 6 (by decide)⟩ (forall₂_v hx)) ?_
    rw [Recurrent.gru_forward (hw.gate (j := 0) hf.1 (by decide)) (hw.gate hf.2.1 (by decide)) (hw.gate hf.2.2 (by decide)),
      Net.apply, List.map_map]; rfl
  | lstm i o =>
    intro k b st is xs _ hp hw hf _ hx
    simp only [Net.size] at hp hw
    refine forward_lift _ (lstm_forward (M := ⟨false, gateOf τ k, gateOf τ (k + 3), gateOf τ (k + 6), gateOf τ (k + 9)⟩) ⟨rfl, hp.gate 0 (by decide), hp.gate 3 (by decide), hp.gate 6 (by decide),
      hp.gate 9 (by decide)⟩ (forall₂_v hx)) ?_
    rw [Recurrent.lstm_forward ⟨hw.gate (j := 0) hf.1 (by decide), hw.gate hf.2.1 (by decide), hw.gate hf.2.2.1 (by decide),
      hw.gate hf.2.2.2 (by decide), fun h => by cases h⟩, Net.apply, List.map_map]; rfl
  | lstmRefined d =>
    intro k b st is xs _ hp hw hf _ hx
    simp only [Net.size] at hp hw
    refine forward_lift _ (lstm_forward (M := ⟨true, gateOf τ k, gateOf τ (k + 3), gateOf τ (k + 6), gateOf τ (k + 9)⟩) ⟨rfl, hp.gate 0 (by decide), hp.gate 3 (by decide), hp.gate 6 (by decide),
      hp.gate 9 (by decide)⟩ (forall₂_v hx)) ?_
    rw [Recurrent.lstm_forward ⟨hw.gate (j := 0) hf.1 (by decide), hw.gate hf.2.1 (by decide), hw.gate hf.2.2.1 (by decide),
      hw.gate hf.2.2.2 (by decide), fun _ => rfl⟩, Net.apply, List.map_map]; rfl
  | attention f i d e =>
    intro k b st is xs hne hp hw hf _ hx
    simp only [Net.size] at hp hw
    refine (selfAttention_sim hp ⟨hw.mat (j := 0) hf.1 (by decide), hw.mat hf.2.1 (by decide)⟩
      ⟨hw.mat hf.2.2.1 (by decide), hw.mat hf.2.2.2.1 (by decide)⟩
      ⟨hw.mat hf.2.2.2.2.1 (by decide), hw.mat hf.2.2.2.2.2 (by decide)⟩ hne hx).weaken
      fun _ _ _ _ h => forall₂_le h fun _ => rfl
  | seq p q ihp ihq =>
    intro k b st is xs hne hp hw hf hr hx
    simp only [Net.size] at hp hw
    refine bindSome (ihp hne (fun x h1 h2 => hp x h1 (by omega)) (fun x h1 h2 => hw x h1 (by omega)) hf.1
      (fun h => (hr h).1) hx) fun st₁ ys hys => ?_
    refine (ihq ?_ (fun x h1 h2 => (hp x (by omega) (by omega)).mono st₁) (fun x h1 h2 => hw x (by omega) (by omega)) hf.2
      (fun h => (hr h).2) hys).weaken fun _ _ _ _ h => forall₂_le h fun h => ?_
    · rw [← List.length_pos_iff, apply_length]; exact List.length_pos_iff.mpr hne
    · cases b <;> simp [Net.size] at h ⊢
      omega
  | residual p ih =>
    intro k b st is xs hne hp hw hf hr hx
    refine bindSome (ih hne hp hw hf hr hx) fun st₁ ys hys => ?_
    refine (addLoop_sim (apply_length p k xs) hys (forall₂_mono hx st₁)).weaken fun _ _ _ _ h => forall₂_le h fun h => ?_
    cases b <;> simp [Net.size] at h ⊢
    exact of_decide_eq_true h
  | sum p q ihp ihq | prod p q ihp ihq | avg p q ihp ihq | concat p q ihp ihq =>
    intro k b st is xs hne hp hw hf hr hx
    simp only [Net.size] at hp hw
    refine (birnn_sim (b := b || decide (0 < p.size)) (b' := b || decide (0 < q.size)) (M := fun st => Params st τ k (p.size + q.size)) (g := _) (by first | exact ⟨rfl, rfl, rfl⟩ | exact ⟨rfl, rfl⟩) (fun st st' h => h.mono st')
      hp (apply_length p k xs) ?_ hx ?_ ?_).weaken fun _ _ _ _ h => forall₂_le h fun h => ?_
    · rw [apply_length, List.length_reverse]
    · intro st is hm hx
      exact ihp hne (fun x h1 h2 => hm x h1 (by omega)) (fun x h1 h2 => hw x h1 (by omega)) hf.1 (fun h => (hr h).1) hx
    · intro st is hm hx
      exact ihq (by simpa using hne) (fun x h1 h2 => hm x (by omega) (by omega)) (fun x h1 h2 => hw x (by omega) (by omega))
        hf.2 (fun h => (hr h).2) hx
    · cases b <;> simp [Net.size] at h ⊢
      omega

/-! ### Training -/

theorem Net.Fits.like {i o : Nat} {θ : Nat → Dense ℝ} (N : Net i o) : ∀ {k : Nat},
    (∀ x, k ≤ x → x < k + N.size → (θ x).Like (τ x)) → N.Fits θ k → N.Fits τ k := by
  have hd : ∀ {x r c : Nat}, (θ x).Like (τ x) → Dims (θ x) r c → Dims (τ x) r c :=
    fun h h' => ⟨h.rows.trans h'.1, h.cols.trans h'.2⟩
  have hg : ∀ {i o x : Nat}, (θ x).Like (τ x) → (θ (x + 1)).Like (τ (x + 1)) → (θ (x + 2)).Like (τ (x + 2)) →
      GateDims i o θ x → GateDims i o τ x := fun h0 h1 h2 h => ⟨hd h0 h.w, hd h1 h.wRec, hd h2 h.b⟩
  induction N with
  | act p d => intro k _ _; exact trivial
  | layerNormSimple d => intro k _ _; exact trivial
  | fixNorm d => intro k _ _; exact trivial
  | softmax d => intro k _ h; exact h
  | logSoftmax d => intro k _ h; exact h
  | scaleNorm d =>
    intro k hl h
    simp only [Net.size] at hl
    exact hd (hl k (by omega) (by omega)) h
  | sqrDist i r =>
    intro k hl h
    simp only [Net.size] at hl
    exact hd (hl k (by omega) (by omega)) h
  | linear i o => 
    intro k hl h
    simp only [Net.size] at hl
    exact ⟨hd (hl k (by omega) (by omega)) h.1, hd (hl (k + 1) (by omega) (by omega)) h.2⟩
  | layerNorm e d => 
    intro k hl h
    simp only [Net.size] at hl
    exact ⟨hd (hl k (by omega) (by omega)) h.1, hd (hl (k + 1) (by omega) (by omega)) h.2⟩
  | rmsNorm d => 
    intro k hl h
    simp only [Net.size] at hl
    exact ⟨hd (hl k (by omega) (by omega)) h.1, hd (hl (k + 1) (by omega) (by omega)) h.2⟩
  | highway p d =>
    intro k hl h
    simp only [Net.size] at hl
    exact ⟨hd (hl k (by omega) (by omega)) h.1, hd (hl (k + 1) (by omega) (by omega)) h.2.1,
      hd (hl (k + 2) (by omega) (by omega)) h.2.2.1, hd (hl (k + 3) (by omega) (by omega)) h.2.2.2⟩
  | srn i o =>
    intro k hl h
    simp only [Net.size] at hl
    exact hg (hl k (by omega) (by omega)) (hl _ (by omega) (by omega)) (hl _ (by omega) (by omega)) h
  | gru i o =>
    intro k hl h
    simp only [Net.size] at hl
    have hg' : ∀ j, j + 2 < 9 → GateDims i o θ (k + j) → GateDims i o τ (k + j) := fun j hj h =>
      hg (hl _ (by omega) (by omega)) (hl _ (by omega) (by omega)) (hl _ (by omega) (by omega)) h
    exact ⟨hg' 0 (by omega) h.1, hg' 3 (by omega) h.2.1, hg' 6 (by omega) h.2.2⟩
  | lstm i o =>
    intro k hl h
    simp only [Net.size] at hl
    have hg' : ∀ j, j + 2 < 12 → GateDims i o θ (k + j) → GateDims i o τ (k + j) := fun j hj h =>
      hg (hl _ (by omega) (by omega)) (hl _ (by omega) (by omega)) (hl _ (by omega) (by omega)) h
    exact ⟨hg' 0 (by omega) h.1, hg' 3 (by omega) h.2.1, hg' 6 (by omega) h.2.2.1, hg' 9 (by omega) h.2.2.2⟩
  | lstmRefined d =>
    intro k hl h
    simp only [Net.size] at hl
    have hg' : ∀ j, j + 2 < 12 → GateDims d d θ (k + j) → GateDims d d τ (k + j) := fun j hj h =>
      hg (hl _ (by omega) (by omega)) (hl _ (by omega) (by omega)) (hl _ (by omega) (by omega)) h
    exact ⟨hg' 0 (by omega) h.1, hg' 3 (by omega) h.2.1, hg' 6 (by omega) h.2.2.1, hg' 9 (by omega) h.2.2.2⟩
  | attention f i d e | causal f i d e =>
    intro k hl h
    simp only [Net.size] at hl
    have hd' : ∀ j < 6, ∀ {r c : Nat}, Dims (θ (k + j)) r c → Dims (τ (k + j)) r c := fun j hj _ _ h =>
      hd (hl _ (by omega) (by omega)) h
    exact ⟨hd' 0 (by omega) h.1, hd' 1 (by omega) h.2.1, hd' 2 (by omega) h.2.2.1, hd' 3 (by omega) h.2.2.2.1,
      hd' 4 (by omega) h.2.2.2.2.1, hd' 5 (by omega) h.2.2.2.2.2⟩
  | residual p ih => intro k hl h; exact ih hl h
  | seq p q ihp ihq | sum p q ihp ihq | prod p q ihp ihq | avg p q ihp ihq | concat p q ihp ihq =>
    intro k hl h
    simp only [Net.size] at hl
    exact ⟨ihp (fun x h1 h2 => hl x h1 (by omega)) h.1, ihq (fun x h1 h2 => hl x (by omega) (by omega)) h.2⟩

/-- **C69.** Training a network of layers on sequences of any length. -/
theorem net_trains {i o n : Nat} (N : Net i o) (mean : Bool) {θ : Nat → Dense ℝ} (hsz : 0 < N.size) (hn : 0 < n)
    (hθ : ∀ x < N.size + (n + n), (θ x).WF) (hf : N.Fits θ 0) (hr : N.Regular θ 0 (vectors θ N.size n))
    (hin : ∀ t < n, (θ (N.size + t)).rows = i ∧ (θ (N.size + t)).cols = 1)
    (htgt : ∀ t < n, (θ (N.size + n + t)).rows = o ∧ (θ (N.size + n + t)).cols = 1) :
    Trains N.size (program N.size (n + n) (withError N.size n mean (N.code 0)))
      (result N.size (n + n) (withError N.size n mean (N.code 0))) (fun τ => some (scalar (N.error n mean τ))) θ := by
  refine trains_of_sim hθ ?_ rfl rfl
  intro τ hlike
  have hlen : (N.apply τ 0 (vectors τ N.size n)).length = n := by rw [apply_length, vectors_length]
  have htg : (List.range n).map (fun t => τ (N.size + n + t)) =
      (List.range n).map fun t => col o (τ (N.size + n + t)).val := by
    refine List.map_congr_left fun t ht => ?_
    rw [List.mem_range] at ht
    have hl := hlike (N.size + n + t) (by omega)
    obtain ⟨h1, h2⟩ := htgt t ht
    rw [← hl.rows] at h1
    rw [← hl.cols] at h2
    exact (eq_col hl.wf h2).trans (congrArg (fun r => col r _) h1)
  have hloss : (do
      let ys ← some ((N.apply τ 0 (vectors τ N.size n)).map (col o))
      Losses.mseSeq ys ((List.range n).map fun t => τ (N.size + n + t)) mean) =
      some (scalar (N.error n mean τ)) := by
    rw [htg]
    conv_lhs => rw [list_range (0 : Nat → ℝ) (N.apply τ 0 (vectors τ N.size n)), hlen, List.map_map]
    exact mseSeq_cols hn _ _ _
  rw [← hloss]
  have hi := inputs_start (k := N.size) (j := n + n) (n := n) (m := 0) (τ := τ) (by omega)
  rw [Nat.add_zero, inputs_cols hin hlike (by omega)] at hi
  have hx : List.Forall₂ (W false (start N.size (n + n) τ)) ((List.range n).map (N.size + ·))
      ((vectors τ N.size n).map (col i)) := hi.imp fun _ _ h => h.w
  have hsim := net_sim (s := τ = θ) (τ := τ) N (k := 0) (b := false)
    (by rw [← List.length_pos_iff, vectors_length]; exact hn)
    (fun x _ h2 => start_param (by omega)) (fun x _ h2 => (hlike x (by omega)).wf)
    (hf.like N fun x _ h2 => hlike x (by omega)) (fun h => by subst h; exact hr) hx
  refine Sim.bind hsim fun st₁ ys Ys _ h => ?_
  have h : Outputs _ ys Ys := h.imp fun _ _ h => h.dOf (by simpa using hsz)
  have ht := Inputs.mono (inputs_start (k := N.size) (j := n + n) (n := n) (m := n) (τ := τ) (by omega)) st₁
  refine (lossSeq_sim (T := fun q => q.cols = 1) (fun st p P t Q hp hq hc => mse_sim hp hq hc) h ht ?_).weaken ?_
  · intro q hq
    rw [htg] at hq
    obtain ⟨t, -, rfl⟩ := List.mem_map.mp hq
    rfl
  · intro st₂ a b _ h
    refine ⟨h.1, le_trans ?_ h.2⟩
    rw [List.length_append, start_length]; omega

theorem variance_nonneg (d : Nat) (x : Nat → ℝ) : 0 ≤ variance d x :=
  div_nonneg (Finset.sum_nonneg fun _ _ => sq_nonneg _) (Nat.cast_nonneg d)

/-- An LSTM forwards and a GRU backwards, layer normalisation, self-attention with a residual connection, a linear layer
and tanh; inputs of size `i`, states of size `h`, keys of size `d` and outputs of size `o`. -/
def sampleNet (i h d o : Nat) : Net i o :=
  .seq (.concat (.lstm i h) (.gru i h)) (.seq (.layerNorm 1 (h + h)) (.seq (.residual (.attention 2 (h + h) d (h + h)))
    (.seq (.linear (h + h) o) (.act .tanh o))))

/-- The dimensions of its parameters. -/
def sampleDims (i h d o : Nat) : List (Nat × Nat) :=
  let gate := [(h, i), (h, h), (h, 1)]
  gate ++ gate ++ gate ++ gate ++ gate ++ gate ++ gate ++ [(h + h, 1), (h + h, 1), (d, h + h), (d, 1), (d, h + h), (d, 1),
    (h + h, h + h), (h + h, 1), (o, h + h), (o, 1)]

/-- It is trained on sequences of every length. -/
example (i h d o n : Nat) (hn : 0 < n) : ∃ θ : Nat → Dense ℝ,
    Trains 31 (program 31 (n + n) (withError 31 n true ((sampleNet i h d o).code 0)))
      (result 31 (n + n) (withError 31 n true ((sampleNet i h d o).code 0)))
      (fun τ => some (scalar ((sampleNet i h d o).error n true τ))) θ := by
  have hs : (sampleNet i h d o).size = 31 := rfl
  refine ⟨fun x => if x < 31 then zeros ((sampleDims i h d o).getD x (0, 0)).1 ((sampleDims i h d o).getD x (0, 0)).2 else
    if x < 31 + n then zeros i 1 else zeros o 1, net_trains (sampleNet i h d o) true (by rw [hs]; omega) hn
      (fun x _ => by split_ifs <;> exact Dense.zeros_WF _ _) ?_ ?_ ?_ ?_⟩
  · exact ⟨⟨⟨⟨⟨rfl, rfl⟩, ⟨rfl, rfl⟩, ⟨rfl, rfl⟩⟩, ⟨⟨rfl, rfl⟩, ⟨rfl, rfl⟩, ⟨rfl, rfl⟩⟩, ⟨⟨rfl, rfl⟩, ⟨rfl, rfl⟩, ⟨rfl, rfl⟩⟩,
      ⟨⟨rfl, rfl⟩, ⟨rfl, rfl⟩, ⟨rfl, rfl⟩⟩⟩, ⟨⟨rfl, rfl⟩, ⟨rfl, rfl⟩, ⟨rfl, rfl⟩⟩, ⟨⟨rfl, rfl⟩, ⟨rfl, rfl⟩, ⟨rfl, rfl⟩⟩,
      ⟨⟨rfl, rfl⟩, ⟨rfl, rfl⟩, ⟨rfl, rfl⟩⟩⟩, ⟨⟨rfl, rfl⟩, ⟨rfl, rfl⟩⟩, ⟨⟨rfl, rfl⟩, ⟨rfl, rfl⟩, ⟨rfl, rfl⟩, ⟨rfl, rfl⟩,
      ⟨rfl, rfl⟩, ⟨rfl, rfl⟩⟩, ⟨⟨rfl, rfl⟩, ⟨rfl, rfl⟩⟩, trivial⟩
  · exact ⟨⟨trivial, trivial⟩, fun x _ => by linarith [variance_nonneg (h + h) x], trivial, trivial, fun _ _ _ _ => trivial⟩
  · intro t ht
    simp only [hs]
    rw [if_neg (by omega), if_pos (by omega)]; exact ⟨rfl, rfl⟩
  · intro t ht
    simp only [hs]
    rw [if_neg (by omega), if_neg (by omega)]; exact ⟨rfl, rfl⟩

end Verif.Record
