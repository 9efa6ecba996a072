import Verif.Lemmas.Train32
import Verif.Props.Back32

set_option autoImplicit false
set_option linter.unusedSimpArgs false

/-!
# C98: a step of training of a feed-forward network of float32

For every network of linear layers and element-wise activations that stays away from overflow, every batch, every rate and every amd64
processor: the step ends, in whatever order the gradients of the examples arrive, and every parameter it ends with is finite and as close
as `stepErr` says to that of a step of gradient descent on the loss of the batch.
-/

namespace Verif.Train32
open Verif.F32 Verif.Asm Verif.Spec Verif.Spec.Kernels Verif.Spec.Net32 Verif.Net32 Verif.Rec32 Verif.Att32 Verif.Back32 Verif.Spec.Back32 Verif.Spec.Train32

variable {α : Type} {φ φ' : α → ℝ → ℝ} {L ε S : α → ℝ} {κ : α → ℝ → ℝ} {safe : α → ℝ → ℝ → Prop}

/-! ### The layers -/

theorem learnFrom_exists {cpu : Cpu} {lr : F32.W} {pss : List (List Par)} : ∀ (ls : List (Layer α)) (k : Nat),
    (∀ pre l post, ls = pre ++ l :: post → ∃ l', LearnLayer cpu lr pss (k + pre.length) l l') → ∃ ls', LearnFrom cpu lr pss k ls ls'
  | [], _, _ => ⟨[], rfl⟩
  | l :: ls, k, h => by
    obtain ⟨l', hl⟩ := h [] l ls rfl
    obtain ⟨r, hr⟩ := learnFrom_exists ls (k + 1) (fun pre l0 post e => by
      obtain ⟨l', hl⟩ := h (l :: pre) l0 post (by rw [e]; rfl)
      refine ⟨l', ?_⟩
      have : k + 1 + pre.length = k + (l :: pre).length := by simp; omega
      rw [this]; exact hl)
    exact ⟨l' :: r, l', r, hl, hr, rfl⟩

theorem learnFrom_at {cpu : Cpu} {lr : F32.W} {pss : List (List Par)} : ∀ (ls : List (Layer α)) {ls' : List (Layer α)} (k : Nat),
    LearnFrom cpu lr pss k ls ls' → ls'.length = ls.length ∧
      ∀ pre l post, ls = pre ++ l :: post → ∃ l', ls'[pre.length]? = some l' ∧ LearnLayer cpu lr pss (k + pre.length) l l'
  | [], ls', k, h => by
    have h : ls' = [] := h
    subst h
    exact ⟨rfl, fun pre l post e => by simp at e⟩
  | l :: ls, ls', k, h => by
    obtain ⟨l', r, h1, h2, rfl⟩ := h
    obtain ⟨i1, i2⟩ := learnFrom_at ls (k + 1) h2
    refine ⟨by simp [i1], fun pre l0 post e => ?_⟩
    cases pre with
    | nil =>
      simp only [List.nil_append, List.cons.injEq] at e
      obtain ⟨rfl, rfl⟩ := e
      exact ⟨l', rfl, h1⟩
    | cons a pre =>
      simp only [List.cons_append, List.cons.injEq] at e
      obtain ⟨rfl, e⟩ := e
      obtain ⟨l', q1, q2⟩ := i2 pre l0 post e
      refine ⟨l', by simpa using q1, ?_⟩
      have : k + (l :: pre).length = k + 1 + pre.length := by simp; omega
      rw [this]; exact q2

/-! ### The gradients of a batch -/

theorem cellSum_cons (g : List F32.W) (l : List (List F32.W)) (i : Nat) : cellSum (g :: l) i = val (g.getD i 0) + cellSum l i := by simp [cellSum]

theorem shares_ok {rows cols : Nat} {M E P H : ℝ} (hM : 0 ≤ M) (hE : 0 ≤ E) (hP : 0 ≤ P) (hH : 0 ≤ H) {k : Nat} {γ v : Target → Nat → ℝ} {Ts : List Target} {pss : List (List Par)}
    (h : List.Forall₂ (fun T ps => ∃ p, ps[k]? = some p ∧ ParOk rows cols p (γ T) (v T) M E P H) Ts pss) :
    (shares pss k).length = Ts.length ∧ (∀ q ∈ shares pss k, Upto (rows * cols) (P * M + weightErr M E P H) q.1 ∧ Upto rows (P + H) q.2) ∧
    (∀ i < rows, ∀ j < cols, |cellSum ((shares pss k).map (·.1)) (i * cols + j) - (Ts.map fun T => γ T i * v T j).sum| ≤ Ts.length * weightErr M E P H) ∧
    ∀ i < rows, |cellSum ((shares pss k).map (·.2)) i - (Ts.map fun T => γ T i).sum| ≤ Ts.length * H := by
  induction h with
  | nil => simp [shares, cellSum]
  | @cons T ps Ts pss h1 _ ih =>
    obtain ⟨p, hp, gw, gb, rfl, l1, l2, w1, w2, s1, s2⟩ := h1
    obtain ⟨i1, i2, i3, i4⟩ := ih
    have e : shares (ps :: pss) k = (gw, gb) :: shares pss k := by simp [shares, hp]
    rw [e]
    refine ⟨by simp [i1], ?_, ?_, ?_⟩
    · intro q hq
      rcases List.mem_cons.mp hq with rfl | hq
      · refine ⟨⟨l1, fun m hm => ?_⟩, l2, fun i hi => ⟨(w2 i hi).1, ?_⟩⟩
        · have hc : 0 < cols := by rcases Nat.eq_zero_or_pos cols with h | h <;> simp_all
          have hi : m / cols < rows := Nat.div_lt_of_lt_mul (by rw [mul_comm]; exact hm)
          have hj : m % cols < cols := Nat.mod_lt _ hc
          have em : m / cols * cols + m % cols = m := by rw [mul_comm]; exact Nat.div_add_mod m cols
          obtain ⟨f, e⟩ := w1 _ hi _ hj
          rw [em] at f e
          refine ⟨f, ?_⟩
          have a1 := abs_sub_abs_le_abs_sub (val (gw.getD m 0)) (γ T (m / cols) * v T (m % cols))
          have a2 : |γ T (m / cols) * v T (m % cols)| ≤ P * M := by rw [abs_mul]; exact mul_le_mul (s1 _ hi) (s2 _ hj) (abs_nonneg _) hP
          linarith
        · have a1 := abs_sub_abs_le_abs_sub (val (gb.getD i 0)) (γ T i)
          have a2 := s1 i hi
          have a3 := (w2 i hi).2
          linarith
      · exact i2 q hq
    · intro i hi j hj
      simp only [List.map_cons, cellSum_cons, List.sum_cons, List.length_cons]
      have a := i3 i hi j hj
      have b := (w1 i hi j hj).2
      rw [Nat.cast_add, Nat.cast_one]
      have e : ∀ p q r s : ℝ, (p + q) - (r + s) = (p - r) + (q - s) := fun p q r s => by ring
      rw [e, add_mul, one_mul]
      exact (abs_add_le _ _).trans (by linarith)
    · intro i hi
      simp only [List.map_cons, cellSum_cons, List.sum_cons, List.length_cons]
      have a := i4 i hi
      have b := (w2 i hi).2
      rw [Nat.cast_add, Nat.cast_one]
      have e : ∀ p q r s : ℝ, (p + q) - (r + s) = (p - r) + (q - s) := fun p q r s => by ring
      rw [e, add_mul, one_mul]
      exact (abs_add_le _ _).trans (by linarith)

theorem fits_pre (pre : List (Layer α)) {ls : List (Layer α)} (hL : ∀ a, 0 ≤ L a) (hε : ∀ a, 0 ≤ ε a) : ∀ {n : Nat} {M E : ℝ}, 0 ≤ M → 0 ≤ E →
    Fits φ L ε (pre ++ ls) n M E → 0 ≤ ranges φ L pre M ∧ 0 ≤ errors φ L ε pre M E ∧
    Fits φ L ε ls (width pre n) (ranges φ L pre M) (errors φ L ε pre M E) := by
  induction pre with
  | nil => intro n M E hM hE h1; exact ⟨hM, hE, h1⟩
  | cons l pre ih =>
    intro n M E hM hE h1
    have hM' := range_nonneg (φ := φ) hL l hM
    have hE' := error_nonneg (ε := ε) hL hε l hM hE
    cases l with
    | lin rows cols w b => exact ih hM' hE' h1.2
    | act a => exact ih hM' hE' h1

/-- The derivative of the loss of a batch. -/
theorem batch_grad {Ts : List Target} {out : ℝ → Target → Nat → ℝ} {δ : Target → ℝ} {s : ℝ}
    (h : ∀ T ∈ Ts, HasDerivAt (fun t => T.J (out t T)) (δ T) s) : HasDerivAt (fun t => batchLoss Ts (out t)) (Ts.map δ).sum s := by
  induction Ts with
  | nil => simpa [batchLoss] using hasDerivAt_const s (0 : ℝ)
  | cons T Ts ih =>
    have h1 := h T List.mem_cons_self
    have h2 := ih fun T hT => h T (List.mem_cons_of_mem _ hT)
    rw [List.map_cons, List.sum_cons]
    exact h1.fun_add h2

theorem forall₂_exists {β γ : Type} {R : β → γ → Prop} : ∀ l : List β, (∀ a ∈ l, ∃ b, R a b) → ∃ r, List.Forall₂ R l r
  | [], _ => ⟨[], .nil⟩
  | a :: l, h => by
    obtain ⟨b, hb⟩ := h a List.mem_cons_self
    obtain ⟨r, hr⟩ := forall₂_exists l fun a ha => h a (List.mem_cons_of_mem _ ha)
    exact ⟨b :: r, .cons hb hr⟩

theorem forall₂_mem {β γ : Type} {R Q : β → γ → Prop} {l : List β} {r : List γ} (h : List.Forall₂ R l r) :
    (∀ a ∈ l, ∀ b, R a b → Q a b) → List.Forall₂ Q l r := by
  induction h with
  | nil => intro _; exact .nil
  | cons h1 _ ih => intro H; exact .cons (H _ List.mem_cons_self _ h1) (ih fun a ha => H a (List.mem_cons_of_mem _ ha))

theorem weightErr_nonneg {M E P H : ℝ} (hM : 0 ≤ M) (hE : 0 ≤ E) (hP : 0 ≤ P) (hH : 0 ≤ H) : 0 ≤ weightErr M E P H := by
  unfold weightErr
  have := dotErr_nonneg (n := 1) (add_nonneg hP hH) (add_nonneg hM hE)
  positivity

/-- From the error of the sum to that of the step. -/
theorem step_total {n : Nat} {z w lr s Δ Q β W : ℝ} (h : |z - (w - lr * s)| ≤ |lr| * (n * n * (Q + β) / 2 ^ 24) + (W + 3 * (|lr| * total n (Q + β) + 1 / 2 ^ 126)) / 2 ^ 24)
    (hs : |s - Δ| ≤ n * β) : |z - (w - lr * Δ)| ≤ stepErr n |lr| W Q β := by
  have e : z - (w - lr * Δ) = (z - (w - lr * s)) + -(lr * (s - Δ)) := by ring
  rw [e]
  refine (abs_add_le _ _).trans ?_
  rw [abs_neg, abs_mul]
  have := mul_le_mul_of_nonneg_left hs (abs_nonneg lr)
  unfold stepErr
  rw [mul_add]
  linarith

/-! ### The step -/

/-- After any passes the updates end; and what is known of the whole step. -/
theorem train_all (cpu : Cpu) {F D : α → List F32.W → List F32.W → Prop} (hF : Good F φ L ε) (hD : GoodSlopes D φ φ' S κ safe)
    {P H M E W : ℝ} (hP : 0 ≤ P) (hH : 0 ≤ H) (hM : 0 ≤ M) (hE : 0 ≤ E) (hW : W ≤ 2 ^ 120) {lr : F32.W} (flr : F32.Finite lr) {ls : List (Layer α)} {d : Nat}
    (hfit : Fits φ L ε ls d M E) {Ts : List Target} (hTs : ∀ T ∈ Ts, GoodEx φ L ε S κ safe P H M E ls d T) (hn : Ts.length ≤ 2 ^ 20)
    (hst : FitsStep φ L ε S κ P H M E W |val lr| Ts.length ls) :
    (∀ pss, Passes cpu F D ls (Ts.map (·.ex)) pss → ∃ ls', LearnFrom cpu lr pss 0 ls ls') ∧
    (∃ ls', Step cpu F D lr (Ts.map (·.ex)) ls ls') ∧ ∀ ls', Step cpu F D lr (Ts.map (·.ex)) ls ls' → CloseStep φ L ε S κ P H M E W lr Ts ls ls' := by
  have hL : ∀ a, 0 ≤ L a := fun a => (hF.pos a).1
  have hε : ∀ a, 0 ≤ ε a := fun a => (hF.pos a).2
  have hS : ∀ a, 0 ≤ S a := fun a => (hD.pos a 0 le_rfl).1
  have hκ : ∀ a E, 0 ≤ E → 0 ≤ κ a E := fun a E h => (hD.pos a E h).2
  have hback := fun T hT => back_ok cpu (G := T.ex.G) hF hD hP hH ls (n := d) (x := T.ex.x) hM hE hfit (hTs T hT).fits ⟨(hTs T hT).len, (hTs T hT).input⟩ (hTs T hT).loss
  -- one linear layer
  have layer_ok : ∀ pss, Passes cpu F D ls (Ts.map (·.ex)) pss → ∀ pre rows cols w b post, ls = pre ++ .lin rows cols w b :: post →
      ∀ g g', g = (shares pss pre.length).map (·.1) → g' = (shares pss pre.length).map (·.2) →
      ((∃ w', Learn cpu lr w g w') ∧ ∀ w', Learn cpu lr w g w' → w'.length = rows * cols ∧ 
        ∀ i < rows, ∀ j < cols, F32.Finite (w'.getD (i * cols + j) 0) ∧
          ∃ Δ, HasDerivAt (fun t => batchLoss Ts fun T => network φ post (nudged rows cols w b i j (network φ pre T.u) t)) Δ 0 ∧
            |val (w'.getD (i * cols + j) 0) - (val (w.getD (i * cols + j) 0) - val lr * Δ)| ≤
              stepErr Ts.length |val lr| W (size S P post * ranges φ L pre M) (weightOff φ L ε S κ P H M E pre (.lin rows cols w b) post)) ∧
      ((∃ b', Learn cpu lr b g' b') ∧ ∀ b', Learn cpu lr b g' b' → b'.length = rows ∧
        ∀ i < rows, F32.Finite (b'.getD i 0) ∧
          ∃ Δ, HasDerivAt (fun t => batchLoss Ts fun T => network φ post (shifted rows cols w b i (network φ pre T.u) t)) Δ 0 ∧
            |val (b'.getD i 0) - (val (b.getD i 0) - val lr * Δ)| ≤
              stepErr Ts.length |val lr| W (size S P post) (biasOff φ L ε S κ P H M E pre (.lin rows cols w b) post)) := by
    rintro pss hp pre rows cols w b post e g g' rfl rfl
    obtain ⟨t1, t2, t3, t4, t5, t6⟩ := hst pre rows cols w b post e
    -- the shape of the layer and the signs
    have hshape : w.length = rows * cols ∧ b.length = rows ∧ (∀ v ∈ w, F32.Finite v) ∧ (∀ v ∈ b, F32.Finite v) ∧ 0 ≤ ranges φ L pre M ∧ 0 ≤ errors φ L ε pre M E := by
      obtain ⟨q1, q2, q3⟩ := fits_pre pre hL hε hM hE (e ▸ hfit)
      obtain ⟨⟨-, -, h2, h3, h4, h5, -, -⟩, -⟩ := q3
      exact ⟨h2, h3, fun v hv => (h4 v hv).1, h5, q1, q2⟩
    obtain ⟨wl, bl, wf, bf, M0, E0⟩ := hshape
    have P0 := size_nonneg hS hP post
    have H0 : 0 ≤ biasOff φ L ε S κ P H M E pre (.lin rows cols w b) post :=
      off_nonneg (φ := φ) hL hε hS hκ hP hH post (range_nonneg hL _ M0) (error_nonneg hL hε _ M0 E0)
    have w0 := weightErr_nonneg M0 E0 P0 H0
    have hsh := shares_ok (k := pre.length) (Ts := Ts) (pss := pss) (rows := rows) (cols := cols)
      (γ := fun T => adj φ φ' T.γ post (layer φ (.lin rows cols w b) (network φ pre T.u))) (v := fun T => network φ pre T.u) M0 E0 P0 H0
      (forall₂_mem ((List.forall₂_map_left_iff).mp hp) (by
        rintro T hT ps ⟨z, hz⟩
        exact ((hback T hT).2 z ps hz).2.2 pre rows cols w b post e))
    obtain ⟨s1, s2, s3, s4⟩ := hsh
    have hgr : ∀ T ∈ Ts, IsGrad rows (fun v => T.J (network φ post v)) (layer φ (.lin rows cols w b) (network φ pre T.u))
        (adj φ φ' T.γ post (layer φ (.lin rows cols w b) (network φ pre T.u))) := by
      intro T hT
      subst e
      obtain ⟨hM1, hE1, e1, f1, f2⟩ := fits_append pre hL hε hM hE hfit (hTs T hT).fits
      have hJ := (hTs T hT).grad
      rw [e1, network_append] at hJ
      exact adj_grad hL hε hD post (range_nonneg hL _ hM1) (error_nonneg hL hε _ hM1 hE1) f1.2 f2.2 hJ
    have wU : Upto (rows * cols) W w := ⟨wl, fun i hi => by
      have hi' : i < w.length := by rw [wl]; exact hi
      rw [List.getD_eq_getElem _ _ hi']
      exact ⟨wf _ (List.getElem_mem hi'), t1 _ (List.getElem_mem hi')⟩⟩
    have bU : Upto rows W b := ⟨bl, fun i hi => by
      have hi' : i < b.length := by rw [bl]; exact hi
      rw [List.getD_eq_getElem _ _ hi']
      exact ⟨bf _ (List.getElem_mem hi'), t2 _ (List.getElem_mem hi')⟩⟩
    constructor
    · have hlen : ((shares pss pre.length).map (·.1)).length = Ts.length := by rw [List.length_map, s1]
      obtain ⟨k1, k2⟩ := learn_ok cpu flr (X := size S P post * ranges φ L pre M + weightOff φ L ε S κ P H M E pre (.lin rows cols w b) post)
        (add_nonneg (mul_nonneg P0 M0) w0) hW wU (l := (shares pss pre.length).map (·.1)) (fun g hg => by
          obtain ⟨q, hq, rfl⟩ := List.mem_map.mp hg
          exact (s2 q hq).1) (by rw [hlen]; exact hn) (by rw [hlen]; exact t3) (by rw [hlen]; exact t4)
      refine ⟨k1, fun w' hw' => ?_⟩
      obtain ⟨k3, k4⟩ := k2 w' hw'
      refine ⟨k3, fun i hi j hj => ?_⟩
      have hij : i * cols + j < rows * cols := by
        calc i * cols + j < i * cols + cols := by omega
          _ = (i + 1) * cols := by ring
          _ ≤ rows * cols := Nat.mul_le_mul_right _ hi
      obtain ⟨f, e1⟩ := k4 _ hij
      rw [hlen] at e1
      exact ⟨f, _, batch_grad fun T hT => weight_grad (hgr T hT) hi hj, step_total e1 (s3 i hi j hj)⟩
    · have hlen : ((shares pss pre.length).map (·.2)).length = Ts.length := by rw [List.length_map, s1]
      obtain ⟨k1, k2⟩ := learn_ok cpu flr (X := size S P post + biasOff φ L ε S κ P H M E pre (.lin rows cols w b) post)
        (add_nonneg P0 H0) hW bU (l := (shares pss pre.length).map (·.2)) (fun g hg => by
          obtain ⟨q, hq, rfl⟩ := List.mem_map.mp hg
          exact (s2 q hq).2) (by rw [hlen]; exact hn) (by rw [hlen]; exact t5) (by rw [hlen]; exact t6)
      refine ⟨k1, fun b' hb' => ?_⟩
      obtain ⟨k3, k4⟩ := k2 b' hb'
      refine ⟨k3, fun i hi => ?_⟩
      obtain ⟨f, e1⟩ := k4 i hi
      rw [hlen] at e1
      exact ⟨f, _, batch_grad fun T hT => bias_grad (hgr T hT) hi, step_total e1 (s4 i hi)⟩
  have learns : ∀ pss, Passes cpu F D ls (Ts.map (·.ex)) pss → ∃ ls', LearnFrom cpu lr pss 0 ls ls' := fun pss hp =>
    learnFrom_exists (cpu := cpu) (lr := lr) (pss := pss) ls 0 fun pre l post e => by
      rw [Nat.zero_add]
      cases l with
      | act a => exact ⟨.act a, rfl⟩
      | lin rows cols w b =>
        obtain ⟨⟨⟨w', hw⟩, -⟩, ⟨b', hb⟩, -⟩ := layer_ok pss hp pre rows cols w b post e _ _ rfl rfl
        exact ⟨.lin rows cols w' b', w', b', hw, hb, rfl⟩
  refine ⟨learns, ?_, ?_⟩
  · obtain ⟨pss, hp⟩ := forall₂_exists (R := fun T ps => ∃ z, Back cpu F D T.ex.G ls T.ex.x z ps) Ts fun T hT => by
      obtain ⟨z, ps, h⟩ := (hback T hT).1
      exact ⟨ps, z, h⟩
    have hp : Passes cpu F D ls (Ts.map (·.ex)) pss := List.forall₂_map_left_iff.mpr hp
    obtain ⟨ls', h⟩ := learns pss hp
    exact ⟨ls', pss, hp, h⟩
  · rintro ls' ⟨pss, hp, h⟩
    obtain ⟨k1, k2⟩ := learnFrom_at ls 0 h
    unfold CloseStep
    refine ⟨k1, fun pre a post e => ?_, fun pre rows cols w b post e => ?_⟩
    · obtain ⟨l', q1, q2⟩ := k2 pre _ post e
      have q2 : l' = .act a := q2
      rw [q1, q2]
    · obtain ⟨l', q1, q2⟩ := k2 pre _ post e
      rw [Nat.zero_add] at q2
      obtain ⟨w', b', hw, hb, rfl⟩ := q2
      obtain ⟨⟨-, a2⟩, -, c2⟩ := layer_ok pss hp pre rows cols w b post e _ _ rfl rfl
      exact ⟨w', b', q1, (a2 w' hw).1, (c2 b' hb).1, (a2 w' hw).2, (c2 b' hb).2⟩

/-- **C98.**  The step of training ends, in any order of the gradients, and whatever it ends with is close to a step of gradient descent on the
loss of the batch. -/
theorem train_close (cpu : Cpu) {F D : α → List F32.W → List F32.W → Prop} (hF : Good F φ L ε) (hD : GoodSlopes D φ φ' S κ safe)
    {P H M E W : ℝ} (hP : 0 ≤ P) (hH : 0 ≤ H) (hM : 0 ≤ M) (hE : 0 ≤ E) (hW : W ≤ 2 ^ 120) {lr : F32.W} (flr : F32.Finite lr) {ls : List (Layer α)} {d : Nat}
    (hfit : Fits φ L ε ls d M E) {Ts : List Target} (hTs : ∀ T ∈ Ts, GoodEx φ L ε S κ safe P H M E ls d T) (hn : Ts.length ≤ 2 ^ 20)
    (hst : FitsStep φ L ε S κ P H M E W |val lr| Ts.length ls) :
    (∃ ls', Step cpu F D lr (Ts.map (·.ex)) ls ls') ∧ ∀ ls', Step cpu F D lr (Ts.map (·.ex)) ls ls' → CloseStep φ L ε S κ P H M E W lr Ts ls ls' :=
  (train_all cpu hF hD hP hH hM hE hW flr hfit hTs hn hst).2

/-- **C98: no examples.**  Without examples no parameter has a gradient, and the network stays as it is. -/
theorem train_nothing (cpu : Cpu) {F D : α → List F32.W → List F32.W → Prop} (lr : F32.W) (ls ls' : List (Layer α)) :
    Step cpu F D lr [] ls ls' ↔ ls' = ls := by
  have learn : ∀ w w', Learn cpu lr w [] w' ↔ w' = w := by
    intro w w'
    constructor
    · rintro ⟨o, g, hp, ha, hu⟩
      rw [List.perm_nil] at hp
      subst hp
      have ha : g = none := ha
      subst ha
      exact hu
    · rintro rfl
      exact ⟨[], none, .refl _, rfl, rfl⟩
  have key : ∀ (ls ls' : List (Layer α)) k, LearnFrom cpu lr [] k ls ls' ↔ ls' = ls := by
    intro ls
    induction ls with
    | nil => intro ls' k; exact Iff.rfl
    | cons l ls ih =>
      intro ls' k
      have hl : ∀ l', LearnLayer cpu lr [] k l l' ↔ l' = l := by
        intro l'
        cases l with
        | act a => exact Iff.rfl
        | lin rows cols w b => simp [LearnLayer, shares, learn]
      simp [LearnFrom, hl, ih]
  unfold Step Passes
  simp [key]

end Verif.Train32
