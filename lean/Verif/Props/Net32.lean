import Verif.Lemmas.Net32
import Verif.Props.CrossEntropy32

set_option autoImplicit false
set_option linter.unusedSimpArgs false

/-!
# C88: a feed-forward network of float32, from the instructions to the real numbers

For every network of linear layers and element-wise activations that stays away from overflow, every input and every amd64
processor, wherever the data are in memory and whatever else is there and in the registers: the forward pass ends, its outputs
are finite, and they are as close to the outputs of the network of real numbers as `errors` says.  So a class that wins there by
more than twice that is the class predicted, and the loss is close to the exact one.
-/

namespace Verif.Net32
open Verif.F32 Verif.Asm Verif.Spec Verif.Spec.Kernels Verif.Spec.Net32 Verif.Softmax32

variable {α : Type}

theorem steps_ok (cpu : Cpu) {F : α → List F32.W → List F32.W → Prop} {φ : α → ℝ → ℝ} {L ε : α → ℝ} (hF : Good F φ L ε)
    (ls : List (Layer α)) : ∀ {n : Nat} {x : List F32.W} {u : Nat → ℝ} {M E : ℝ}, 0 ≤ M → 0 ≤ E → Fits φ L ε ls n M E →
    Close n x u M E → (∃ y, Runs cpu F ls x y) ∧ ∀ y, Runs cpu F ls x y →
      Close (width ls n) y (network φ ls u) (ranges φ L ls M) (errors φ L ε ls M E) := by
  induction ls with
  | nil =>
    intro n x u M E _ _ _ hx
    exact ⟨⟨x, rfl⟩, fun y hy => by rw [show y = x from hy]; exact hx⟩
  | cons l ls ih =>
    intro n x u M E hM hE hfit hx
    cases l with
    | lin rows cols w b =>
      obtain ⟨⟨rfl, h1, h2, h3, h4, h5, h6, h7⟩, hr⟩ := hfit
      obtain ⟨⟨z, hz⟩, hall⟩ := lin_ok cpu hM hE h1 h2 h3 h4 h5 h6 h7 hx
      have hΛ : 0 ≤ norm rows n w := largest_nonneg _ _
      have hβ : 0 ≤ bias rows b := largest_nonneg _ _
      have hM' : 0 ≤ range φ L (.lin rows n w b) M := by show 0 ≤ norm rows n w * M + bias rows b; positivity
      have hE' : 0 ≤ error L ε (.lin rows n w b : Layer α) M E := by
        show 0 ≤ norm rows n w * E + dotErr n (norm rows n w) (M + E) + (top rows n w b (M + E) + (2 : ℝ) ^ (-126 : Int)) / 2 ^ 24
        have h8 := dotErr_nonneg (n := n) hΛ (add_nonneg hM hE)
        have h9 := top_nonneg (rows := rows) (cols := n) (w := w) (b := b) (add_nonneg hM hE)
        positivity
      constructor
      · obtain ⟨⟨y, hy⟩, -⟩ := ih hM' hE' hr (hall z hz)
        exact ⟨y, z, hz, hy⟩
      · rintro y ⟨z', hz', hy⟩
        exact (ih hM' hE' hr (hall z' hz')).2 y hy
    | act a =>
      have hM' : 0 ≤ range φ L (.act a) M := add_nonneg (mul_nonneg (hF.pos a).1 hM) (abs_nonneg _)
      have hE' : 0 ≤ error L ε (.act a : Layer α) M E := add_nonneg (mul_nonneg (hF.pos a).1 hE) (hF.pos a).2
      obtain ⟨⟨z, hz⟩, hall⟩ := act_ok hF a hx
      constructor
      · obtain ⟨⟨y, hy⟩, -⟩ := ih hM' hE' hfit (hall z hz)
        exact ⟨y, z, hz, hy⟩
      · rintro y ⟨z', hz', hy⟩
        exact (ih hM' hE' hfit (hall z' hz')).2 y hy

/-- **C88.** The forward pass ends, and whatever it ends with is finite and close to the exact outputs.  `u` are the exact
inputs, up to `M`, and `x` the words given to the network, within `E` of them. -/
theorem forward_close (cpu : Cpu) {F : α → List F32.W → List F32.W → Prop} {φ : α → ℝ → ℝ} {L ε : α → ℝ} (hF : Good F φ L ε)
    {ls : List (Layer α)} {x : List F32.W} {u : Nat → ℝ} {M E : ℝ} (hM : 0 ≤ M) (hE : 0 ≤ E)
    (hfit : Fits φ L ε ls x.length M E)
    (hx : ∀ i < x.length, F32.Finite (x.getD i 0) ∧ |val (x.getD i 0) - u i| ≤ E ∧ |u i| ≤ M) :
    (∃ y, Runs cpu F ls x y) ∧ ∀ y, Runs cpu F ls x y → y.length = width ls x.length ∧
      ∀ i < width ls x.length, F32.Finite (y.getD i 0) ∧ |val (y.getD i 0) - network φ ls u i| ≤ errors φ L ε ls M E := by
  obtain ⟨h1, h2⟩ := steps_ok cpu hF ls hM hE hfit ⟨rfl, hx⟩
  exact ⟨h1, fun y hy => ⟨(h2 y hy).1, fun i hi => ⟨((h2 y hy).2 i hi).1, ((h2 y hy).2 i hi).2.1⟩⟩⟩

/-! ### The class -/

open Verif.CrossEntropy32

theorem loop_stay {l : List F32.W} {i k : Nat} {m : F32.W} (h : ∀ v ∈ l, lt m v = false) : argMaxLoop i k m l = k := by
  induction l generalizing i with
  | nil => rfl
  | cons v l ih =>
    unfold argMaxLoop
    rw [h v (List.mem_cons_self ..)]
    exact ih fun v hv => h v (List.mem_cons_of_mem _ hv)

theorem loop_find {l : List F32.W} (hl : ∀ v ∈ l, F32.Finite v) {c : Nat} {a : F32.W} (hc : l[c]? = some a)
    (hbest : ∀ i v, l[i]? = some v → i ≠ c → val v < val a) {i k : Nat} {m : F32.W} (hmf : F32.Finite m) (hm : val m < val a) :
    argMaxLoop i k m l = i + c := by
  induction l generalizing c i k m with
  | nil => simp at hc
  | cons v l ih =>
    have hv := hl v (List.mem_cons_self ..)
    have hl' : ∀ v ∈ l, F32.Finite v := fun v hv => hl v (List.mem_cons_of_mem _ hv)
    unfold argMaxLoop
    cases c with
    | zero =>
      simp only [List.getElem?_cons_zero, Option.some.injEq] at hc
      subst hc
      rw [if_pos ((lt_iff hmf hv).mpr hm), add_zero]
      refine loop_stay fun b hb => ?_
      obtain ⟨j, hj⟩ := List.mem_iff_getElem?.mp hb
      have := hbest (j + 1) b (by simpa using hj) (by omega)
      have hnot : ¬ lt v b = true := fun h => by
        have := (lt_iff hv (hl' b hb)).mp h; linarith
      simpa using hnot
    | succ c =>
      have hc' : l[c]? = some a := by simpa using hc
      have hb' : ∀ i v, l[i]? = some v → i ≠ c → val v < val a := fun i b h1 h2 =>
        hbest (i + 1) b (by simpa using h1) (by omega)
      have hva : val v < val a := hbest 0 v (by simp) (by omega)
      split
      · rw [ih hl' hc' hb' hv hva]; omega
      · rw [ih hl' hc' hb' hmf hm]; omega

/-- `ArgMax` finds the largest element. -/
theorem argMax_find {l : List F32.W} (hl : ∀ v ∈ l, F32.Finite v) {c : Nat} {a : F32.W} (hc : l[c]? = some a)
    (hbest : ∀ i v, l[i]? = some v → i ≠ c → val v < val a) : argMax32 l = some c := by
  cases l with
  | nil => simp at hc
  | cons v l =>
    have hv := hl v (List.mem_cons_self ..)
    have hl' : ∀ v ∈ l, F32.Finite v := fun v hv => hl v (List.mem_cons_of_mem _ hv)
    have hvv : lt v v = false := by
      have : ¬ lt v v = true := fun h => lt_irrefl _ ((lt_iff hv hv).mp h)
      simpa using this
    show some (argMaxLoop 0 0 v (v :: l)) = some c
    unfold argMaxLoop
    rw [hvv]
    simp only [Bool.false_eq_true, if_false, zero_add]
    congr 1
    cases c with
    | zero =>
      simp only [List.getElem?_cons_zero, Option.some.injEq] at hc
      subst hc
      refine loop_stay fun b hb => ?_
      obtain ⟨j, hj⟩ := List.mem_iff_getElem?.mp hb
      have := hbest (j + 1) b (by simpa using hj) (by omega)
      have hnot : ¬ lt v b = true := fun h => by
        have := (lt_iff hv (hl' b hb)).mp h; linarith
      simpa using hnot
    | succ c =>
      rw [loop_find hl' (by simpa using hc) (fun i b h1 h2 => hbest (i + 1) b (by simpa using h1) (by omega)) hv
        (hbest 0 v (by simp) (by omega))]
      omega

/-- **C88: the class.** When one class wins by more than twice the error in the network of real numbers, the network of float32
predicts it. -/
theorem forward_class (cpu : Cpu) {F : α → List F32.W → List F32.W → Prop} {φ : α → ℝ → ℝ} {L ε : α → ℝ} (hF : Good F φ L ε)
    {ls : List (Layer α)} {x : List F32.W} {u : Nat → ℝ} {M E : ℝ} (hM : 0 ≤ M) (hE : 0 ≤ E)
    (hfit : Fits φ L ε ls x.length M E)
    (hx : ∀ i < x.length, F32.Finite (x.getD i 0) ∧ |val (x.getD i 0) - u i| ≤ E ∧ |u i| ≤ M)
    {c : Nat} (hc : c < width ls x.length)
    (hwin : ∀ i < width ls x.length, i ≠ c → network φ ls u i + 2 * errors φ L ε ls M E < network φ ls u c) :
    ∀ y, Runs cpu F ls x y → argMax32 y = some c := by
  intro y hy
  obtain ⟨h1, h2⟩ := (forward_close cpu hF hM hE hfit hx).2 y hy
  have hget : ∀ i (h : i < y.length), y.getD i 0 = y[i] := fun i h => List.getD_eq_getElem _ _ h
  refine argMax_find (a := y.getD c 0) (fun v hv => ?_) (by rw [hget c (by omega)]; simp [h1, hc]) ?_
  · obtain ⟨i, hi, rfl⟩ := List.mem_iff_getElem.mp hv
    rw [← hget i hi]; exact (h2 i (h1 ▸ hi)).1
  · intro i v hi hne
    obtain ⟨hi', rfl⟩ := List.getElem?_eq_some_iff.mp hi
    rw [← hget i hi']
    have e1 := abs_le.mp (h2 i (h1 ▸ hi')).2
    have e2 := abs_le.mp (h2 c hc).2
    have := hwin i (h1 ▸ hi') hne
    linarith [e1.1, e1.2, e2.1, e2.2]

/-! ### The loss -/

theorem crossEntropyOf_eq {n : Nat} {f : Nat → ℝ} {c : Nat} (hc : c < n) :
    crossEntropyOf n f c = Real.log (∑ j ∈ Finset.range n, Real.exp (f j)) - f c := by
  have hpos : 0 < ∑ j ∈ Finset.range n, Real.exp (f j) :=
    Finset.sum_pos (fun _ _ => Real.exp_pos _) ⟨c, Finset.mem_range.mpr hc⟩
  unfold crossEntropyOf
  rw [Real.log_div (Real.exp_ne_zero _) hpos.ne', Real.log_exp]
  ring

theorem lse_le {n : Nat} (hn : 0 < n) {f g : Nat → ℝ} {d : ℝ} (h : ∀ i < n, f i ≤ g i + d) :
    Real.log (∑ j ∈ Finset.range n, Real.exp (f j)) ≤ Real.log (∑ j ∈ Finset.range n, Real.exp (g j)) + d := by
  have hpos : ∀ f : Nat → ℝ, 0 < ∑ j ∈ Finset.range n, Real.exp (f j) := fun f =>
    Finset.sum_pos (fun _ _ => Real.exp_pos _) ⟨0, Finset.mem_range.mpr hn⟩
  calc _ ≤ Real.log ((∑ j ∈ Finset.range n, Real.exp (g j)) * Real.exp d) := by
        refine Real.log_le_log (hpos f) ?_
        rw [Finset.sum_mul]
        refine Finset.sum_le_sum fun i hi => ?_
        rw [← Real.exp_add]
        exact Real.exp_le_exp.mpr (h i (Finset.mem_range.mp hi))
    _ = _ := by rw [Real.log_mul (hpos g).ne' (Real.exp_ne_zero _), Real.log_exp]

/-- Scores that are off by `d` change the loss by `2 d`. -/
theorem crossEntropyOf_near {n : Nat} {f g : Nat → ℝ} {c : Nat} (hc : c < n) {d : ℝ} (h : ∀ i < n, |f i - g i| ≤ d) :
    |crossEntropyOf n f c - crossEntropyOf n g c| ≤ 2 * d := by
  rw [crossEntropyOf_eq hc, crossEntropyOf_eq hc]
  have h1 := lse_le (by omega : 0 < n) (f := f) (g := g) (d := d) fun i hi => by linarith [(abs_le.mp (h i hi)).2]
  have h2 := lse_le (by omega : 0 < n) (f := g) (g := f) (d := d) fun i hi => by linarith [(abs_le.mp (h i hi)).1]
  obtain ⟨h3, h4⟩ := abs_le.mp (h c hc)
  exact abs_le.mpr ⟨by linarith, by linarith⟩

/-- **C88: the loss.** `losses.CrossEntropy` of the outputs, in the slice `o`, ends with a finite number, not negative, close to
the cross entropy of the outputs of the network of real numbers. -/
theorem forward_loss (cpu : Cpu) {F : α → List F32.W → List F32.W → Prop} {φ : α → ℝ → ℝ} {L ε : α → ℝ} (hF : Good F φ L ε)
    {ls : List (Layer α)} {x : List F32.W} {u : Nat → ℝ} {M E : ℝ} (hM : 0 ≤ M) (hE : 0 ≤ E)
    (hfit : Fits φ L ε ls x.length M E)
    (hx : ∀ i < x.length, F32.Finite (x.getD i 0) ∧ |val (x.getD i 0) - u i| ≤ E ∧ |u i| ≤ M)
    {c : Nat} (hc : c < width ls x.length) (hn : width ls x.length ≤ 2 ^ 20)
    (hA : ranges φ L ls M + errors φ L ε ls M E ≤ 2 ^ 126)
    {exp log : F32.W → F32.W} (hexp : Softmax32.GoodExp exp) (hone : CrossEntropy32.ExpOne exp)
    (hlog : CrossEntropy32.GoodLog log) (j : ExpLog.Lane)
    {o d e : Asm.Sl} (ho : o.len = width ls x.length) (hd : d.len = o.len) (he : e.len = o.len)
    (hald : d.base % 4 = 0) (hale : e.base % 4 = 0) (hod : Apart 4 o.len o.base d.base) (hde : Apart 4 o.len d.base e.base)
    (s : St F32.W) (hy : Runs cpu F ls x (elems 4 s.mem o.base o.len)) :
    ∃ t l, (∀ t' l', CrossEntropy32.Runs cpu j exp log o d e c s t' l' ↔ t' = t ∧ l' = l) ∧ F32.Finite l ∧ 0 ≤ val l ∧
      |val l - crossEntropyOf (width ls x.length) (network φ ls u) c| ≤
        CrossEntropy32.tol (width ls x.length) (ranges φ L ls M + errors φ L ε ls M E) + 2 * errors φ L ε ls M E := by
  obtain ⟨hlen, hcl⟩ := (steps_ok cpu hF ls hM hE hfit ⟨rfl, hx⟩).2 _ hy
  have hget : ∀ i < o.len, (elems 4 s.mem o.base o.len).getD i 0 = s.mem (o.base + 4 * i) := fun i hi => by
    rw [List.getD_eq_getElem _ _ (by simp [elems, hi])]; simp [elems]
  have hcl' : ∀ i < o.len, F32.Finite (s.mem (o.base + 4 * i)) ∧
      |val (s.mem (o.base + 4 * i)) - network φ ls u i| ≤ errors φ L ε ls M E ∧ |network φ ls u i| ≤ ranges φ L ls M :=
    fun i hi => by have := hcl i (ho ▸ hi); rwa [hget i hi] at this
  obtain ⟨t, l, g1, -, g3, g4, g5⟩ := cross_entropy cpu j hexp hone hlog hd he (ho ▸ hn) hald hale hod hde
    (c := c) (ho ▸ hc) hA s (fun i hi => .inl (hcl' i hi).1) (fun i hi _ => by
      have h1 := (hcl' i hi).2.1
      have h2 := (hcl' i hi).2.2
      have h3 := abs_sub_abs_le_abs_sub (val (s.mem (o.base + 4 * i))) (network φ ls u i)
      linarith) (hcl' c (ho ▸ hc)).1
  refine ⟨t, l, g1, g3, g4, ?_⟩
  have hsame : CrossEntropy32.crossEntropy o.len (fun k => s.mem (o.base + 4 * k)) c =
      crossEntropyOf o.len (fun k => val (s.mem (o.base + 4 * k))) c := by
    have hw : ∀ i < o.len, Softmax32.weight (s.mem (o.base + 4 * i)) = Real.exp (val (s.mem (o.base + 4 * i))) := fun i hi => by
      unfold Softmax32.weight
      have hne : s.mem (o.base + 4 * i) ≠ negInf := fun h => not_finite_inf.2 (h ▸ (hcl' i hi).1)
      rw [if_neg hne]
    unfold CrossEntropy32.crossEntropy Softmax32.softmax crossEntropyOf
    rw [hw c (ho ▸ hc), Finset.sum_congr rfl fun i hi => hw i (Finset.mem_range.mp hi)]
  rw [hsame, ho] at g5
  have := crossEntropyOf_near (f := fun k => val (s.mem (o.base + 4 * k))) (g := network φ ls u) hc
    fun i hi => (hcl' i (ho ▸ hi)).2.1
  have h3 := abs_sub_le (val l) (crossEntropyOf (width ls x.length) (fun k => val (s.mem (o.base + 4 * k))) c)
    (crossEntropyOf (width ls x.length) (network φ ls u) c)
  linarith

theorem relu1_val {v : F32.W} (hv : F32.Finite v) : F32.Finite (relu1 v) ∧ |val (relu1 v) - max 0 (val v)| ≤ 0 := by
    have h0 : F32.Finite 0 := by unfold F32.Finite; decide
    unfold relu1
    rw [hv.not_nan]
    simp only [Bool.false_eq_true, if_false]
    split
    · rename_i h
      have := (lt_iff h0 hv).mp h
      rw [val_zero] at this
      exact ⟨hv, by rw [max_eq_right this.le]; simp⟩
    · rename_i h
      have : ¬ (0 : ℝ) < val v := fun h' => h ((lt_iff h0 hv).mpr (by rwa [val_zero]))
      exact ⟨h0, by rw [val_zero, max_eq_left (not_lt.mp this)]; simp⟩

/-- `ReLU` is exact. -/
theorem relu_good : Good (fun _ : Unit => relu32) (fun _ x => max 0 x) (fun _ => 1) (fun _ => 0) where
  ends _ x _ := ⟨_, rfl⟩
  near _ x z hx hz := by
    rw [show z = x.map relu1 from hz]
    refine ⟨by simp, fun i hi => ?_⟩
    rw [List.getD_eq_getElem _ _ (by simpa using hi), List.getElem_map, List.getD_eq_getElem _ _ hi]
    exact relu1_val (hx _ (List.getElem_mem hi))
  lip _ x y := by
    rw [one_mul]
    have := abs_max_sub_max_le_abs x y 0
    rwa [max_comm x, max_comm y] at this
  pos _ := ⟨zero_le_one, le_rfl⟩

end Verif.Net32
