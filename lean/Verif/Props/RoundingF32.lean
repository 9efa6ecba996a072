import Verif.Props.Rounding
import Verif.Lemmas.F32Round

set_option autoImplicit false
set_option linter.unusedSimpArgs false
set_option maxRecDepth 10000

/-!
# C79 for the words of float32

The arithmetic is that of the processor, bit by bit (`Model/F32Fma.lean`): rounding to nearest even, subnormal numbers,
infinities, NaN.  Memory and registers hold any words.  If the result is finite, so are all elements that went into it, and
the result is within the bound; products that underflow add at most what the `2^-63` below stand for.
-/

namespace Verif.Asm
open Verif.Spec Verif.Spec.Kernels Verif.F32 Polynomial

/-- Half a unit in the last place of 1. -/
noncomputable def ulp : ℝ := 1 / 2 ^ 24

/-- Its square is the smallest normal number. -/
noncomputable def tiny : ℝ := 1 / 2 ^ 63

theorem ulp_nonneg : 0 ≤ ulp := by unfold ulp; positivity
theorem tiny_pos : 0 < tiny := by unfold tiny; positivity
theorem tiny_le_one : tiny ≤ 1 := by unfold tiny; norm_num

theorem slack_le {x B : ℝ} (h1 : |x| ≤ B) (h2 : tiny ^ 2 ≤ B) : slack x ≤ ulp * B := by
  unfold slack ulp
  have : (2 : ℝ) ^ (-126 : Int) = tiny ^ 2 := by unfold tiny; norm_num
  rw [this, div_mul_eq_mul_div, one_mul]
  gcongr
  exact max_le h1 h2

/-- One more rounding. -/
theorem slack_step {a x v A : ℝ} {n : Nat} (hA : tiny ^ 2 ≤ A) (hv : |v| ≤ A) (h : |x - v| ≤ growth ulp n * A)
    (ha : |a - x| ≤ slack x) : |a - v| ≤ growth ulp (n + 1) * A := by
  have hg := growth_nonneg ulp_nonneg n
  have hA0 : 0 ≤ A := (abs_nonneg _).trans hv
  have h2 : |x| ≤ |v| + |x - v| := by
    have := abs_add_le v (x - v); rwa [add_sub_cancel] at this
  have h3 : |a - v| ≤ |a - x| + |x - v| := abs_sub_le _ _ _
  have h4 : slack x ≤ ulp * (A + growth ulp n * A) :=
    slack_le (by linarith) (by have := mul_nonneg hg hA0; linarith)
  have h5 : growth ulp (n + 1) * A = ulp * (A + growth ulp n * A) + growth ulp n * A := by
    unfold growth; ring
  rw [h5]; linarith

/-- The word `w` is close to the exact value `b.1`. -/
def Close (b : Trace) (w : F32.W) : Prop :=
  (b = 0 ∧ val w = 0) ∨
  (b.2.2 ≠ 0 ∧ 1 ≤ b.2.2.natDegree ∧ |b.1| ≤ b.2.1 ∧ |val w - b.1| ≤ growth ulp (steps b.2.2) * b.2.1 ∧
    tiny ^ 2 ≤ b.2.1 ∧ (b.2.2.natDegree = 1 → tiny ≤ b.2.1))

/-- The word `w` belongs to the exact value `b.1`, if it is finite; nothing is said about products of three or more
elements, which the routines do not compute. -/
def FollowsW (b : Trace) (w : F32.W) : Prop := b.2.2.natDegree ≤ 2 → F32.Finite w → Close b w

/-- A word read from memory. -/
noncomputable def leafW (w : F32.W) : Trace := (val w, |val w| + tiny, X)

theorem tiny_sq_le {A : ℝ} (h : tiny ≤ A) : tiny ^ 2 ≤ A := by
  have := tiny_pos; have := tiny_le_one; nlinarith

theorem leafW_follows (w : F32.W) : FollowsW (leafW w) w := by
  intro _ _
  have ht : tiny ≤ |val w| + tiny := by linarith [abs_nonneg (val w)]
  refine .inr ⟨X_ne_zero, by simp [leafW], ?_, ?_, tiny_sq_le ht, fun _ => ht⟩
  · show |val w| ≤ |val w| + tiny
    linarith [tiny_pos]
  · simp [leafW, steps, growth_zero]

theorem addW_follows {b b' : Trace} {w w' : F32.W} (h : FollowsW b w) (h' : FollowsW b' w') :
    FollowsW (b + b') (addIeee w w') := by
  intro hdeg hfin
  have d1 := natDegree_le_add b.2.2 b'.2.2
  have d2 := natDegree_le_add b'.2.2 b.2.2
  rw [add_comm] at d2
  have hdeg' : (b.2.2 + b'.2.2).natDegree ≤ 2 := hdeg
  obtain ⟨f, f'⟩ := add_finite hfin
  rcases h (by omega) f with ⟨rfl, h0⟩ | ⟨h1, h2, h4, h5, h6, h7⟩
  · rw [zero_add]
    unfold Close
    rw [add_zero_val f f' (.inl h0), h0, zero_add]
    refine h' ?_ f'
    rwa [zero_add] at hdeg
  rcases h' (by omega) f' with ⟨rfl, h0⟩ | ⟨h1', h2', h4', h5', h6', h7'⟩
  · rw [add_zero]
    unfold Close
    rw [add_zero_val f f' (.inr h0), h0, add_zero]
    exact .inr ⟨h1, h2, h4, h5, h6, h7⟩
  have c1 := eval_pos h1
  have c2 := eval_pos h1'
  have hA : 0 ≤ b.2.1 := (abs_nonneg _).trans h4
  have hA' : 0 ≤ b'.2.1 := (abs_nonneg _).trans h4'
  have hs : max (steps b.2.2) (steps b'.2.2) + 1 ≤ steps (b.2.2 + b'.2.2) := by
    unfold steps
    rw [eval_add]
    omega
  have hv : |b.1 + b'.1| ≤ b.2.1 + b'.2.1 := (abs_add_le _ _).trans (add_le_add h4 h4')
  refine .inr ⟨add_ne_zero_left _ h1, h2.trans d1, hv, ?_, ?_, ?_⟩
  · have hex : |val w + val w' - (b.1 + b'.1)| ≤
        growth ulp (max (steps b.2.2) (steps b'.2.2)) * (b.2.1 + b'.2.1) := by
      have e : val w + val w' - (b.1 + b'.1) = (val w - b.1) + (val w' - b'.1) := by ring
      rw [e, mul_add]
      refine (abs_add_le _ _).trans (add_le_add (h5.trans ?_) (h5'.trans ?_))
      · exact mul_le_mul_of_nonneg_right (growth_mono ulp_nonneg (le_max_left _ _)) hA
      · exact mul_le_mul_of_nonneg_right (growth_mono ulp_nonneg (le_max_right _ _)) hA'
    exact (slack_step (by linarith) hv hex (add_near_fin hfin)).trans
      (mul_le_mul_of_nonneg_right (growth_mono ulp_nonneg hs) (add_nonneg hA hA'))
  · show tiny ^ 2 ≤ b.2.1 + b'.2.1
    linarith
  · intro hd
    have hd' : (b.2.2 + b'.2.2).natDegree = 1 := hd
    show tiny ≤ b.2.1 + b'.2.1
    have := h7 (by omega)
    linarith

theorem fmaW_follows {b b' b'' : Trace} {w w' w'' : F32.W} (h : FollowsW b w) (h' : FollowsW b' w')
    (h'' : FollowsW b'' w'') : FollowsW (b * b' + b'') (fmaIeee w w' w'') := by
  intro hdeg hfin
  obtain ⟨f, f', f''⟩ := fma_finite hfin
  have zero : b * b' = 0 → val w * val w' = 0 → b''.2.2.natDegree ≤ 2 →
      Close (b * b' + b'') (fmaIeee w w' w'') := fun e e' hd => by
    have := h'' hd f''
    unfold Close at this ⊢
    rwa [e, zero_add, fma_zero_val f f' f'' e']
  have hdeg' : (b.2.2 * b'.2.2 + b''.2.2).natDegree ≤ 2 := hdeg
  have d1 := natDegree_le_add (b.2.2 * b'.2.2) b''.2.2
  have d2 := natDegree_le_add b''.2.2 (b.2.2 * b'.2.2)
  rw [add_comm] at d2
  by_cases hb : b.2.2 = 0
  · rcases h (by rw [hb]; simp) f with ⟨rfl, h0⟩ | ⟨h1, -⟩
    · exact zero (zero_mul _) (by rw [h0, zero_mul]) (by omega)
    · exact absurd hb h1
  by_cases hb' : b'.2.2 = 0
  · rcases h' (by rw [hb']; simp) f' with ⟨rfl, h0⟩ | ⟨h1, -⟩
    · exact zero (mul_zero _) (by rw [h0, mul_zero]) (by omega)
    · exact absurd hb' h1
  have dm := natDegree_mul hb hb'
  rcases h (by omega) f with ⟨rfl, -⟩ | ⟨h1, h2, h4, h5, h6, h7⟩
  · exact absurd rfl hb
  rcases h' (by omega) f' with ⟨rfl, -⟩ | ⟨h1', h2', h4', h5', h6', h7'⟩
  · exact absurd rfl hb'
  have t1 := h7 (by omega)
  have t2 := h7' (by omega)
  have ht := tiny_pos
  have hA : 0 ≤ b.2.1 := ht.le.trans t1
  have hA' : 0 ≤ b'.2.1 := ht.le.trans t2
  have hm := mul_step ulp_nonneg h4 h4' h5 h5'
  have hvm : |b.1 * b'.1| ≤ b.2.1 * b'.2.1 := by rw [abs_mul]; exact mul_le_mul h4 h4' (abs_nonneg _) hA
  have hsm := steps_mul h1 h1' h2 h2'
  have hne : b.2.2 * b'.2.2 ≠ 0 := mul_ne_zero h1 h1'
  have hd : 1 ≤ (b.2.2 * b'.2.2).natDegree := by omega
  have hsq : tiny ^ 2 ≤ b.2.1 * b'.2.1 := by rw [pow_two]; exact mul_le_mul t1 t2 ht.le hA
  rcases h'' (by omega) f'' with ⟨rfl, h0⟩ | ⟨h1'', h2'', h4'', h5'', h6'', h7''⟩
  · rw [add_zero]
    refine .inr ⟨hne, hd, hvm, ?_, hsq, fun hd1 => ?_⟩
    · have hn := fma_near_fin hfin
      rw [h0, add_zero] at hn
      exact (slack_step hsq hvm hm hn).trans
        (mul_le_mul_of_nonneg_right (growth_mono ulp_nonneg hsm) (mul_nonneg hA hA'))
    · exfalso
      have hd1' : (b.2.2 * b'.2.2).natDegree = 1 := hd1
      omega
  · have hA'' : 0 ≤ b''.2.1 := (abs_nonneg _).trans h4''
    have hv : |b.1 * b'.1 + b''.1| ≤ b.2.1 * b'.2.1 + b''.2.1 := (abs_add_le _ _).trans (add_le_add hvm h4'')
    have hs : max (steps b.2.2 + steps b'.2.2) (steps b''.2.2) + 1 ≤ steps (b.2.2 * b'.2.2 + b''.2.2) := by
      have c1 := eval_pos hne
      have c2 := eval_pos h1''
      have e : steps (b.2.2 * b'.2.2) = (b.2.2 * b'.2.2).eval 1 + (b.2.2 * b'.2.2).natDegree - 2 := rfl
      have e'' : steps b''.2.2 = b''.2.2.eval 1 + b''.2.2.natDegree - 2 := rfl
      have e3 : steps (b.2.2 * b'.2.2 + b''.2.2) =
        (b.2.2 * b'.2.2).eval 1 + b''.2.2.eval 1 + (b.2.2 * b'.2.2 + b''.2.2).natDegree - 2 := by
          unfold steps; rw [eval_add]
      omega
    refine .inr ⟨add_ne_zero_left _ hne, hd.trans d1, hv, ?_, ?_, fun hd1 => ?_⟩
    · have hex : |val w * val w' + val w'' - (b.1 * b'.1 + b''.1)| ≤
          growth ulp (max (steps b.2.2 + steps b'.2.2) (steps b''.2.2)) * (b.2.1 * b'.2.1 + b''.2.1) := by
        have e : val w * val w' + val w'' - (b.1 * b'.1 + b''.1) =
          (val w * val w' - b.1 * b'.1) + (val w'' - b''.1) := by ring
        rw [e, mul_add]
        refine (abs_add_le _ _).trans (add_le_add (hm.trans ?_) (h5''.trans ?_))
        · exact mul_le_mul_of_nonneg_right (growth_mono ulp_nonneg (le_max_left _ _)) (mul_nonneg hA hA')
        · exact mul_le_mul_of_nonneg_right (growth_mono ulp_nonneg (le_max_right _ _)) hA''
      exact (slack_step (by linarith) hv hex (fma_near_fin hfin)).trans
        (mul_le_mul_of_nonneg_right (growth_mono ulp_nonneg hs) (add_nonneg (mul_nonneg hA hA') hA''))
    · show tiny ^ 2 ≤ b.2.1 * b'.2.1 + b''.2.1
      linarith
    · exfalso
      have hd1' : (b.2.2 * b'.2.2 + b''.2.2).natDegree = 1 := hd1
      omega

theorem exact_zero : F32.Exact 0 := ⟨0, 0, by simp, by norm_num, by norm_num⟩

theorem mulW_follows {b b' : Trace} {w w' : F32.W} (h : FollowsW b w) (h' : FollowsW b' w') :
    FollowsW (b * b') (mulIeee w w') := by
  intro hdeg hfin
  obtain ⟨f, f'⟩ := mul_finite hfin
  have zero : b * b' = 0 → val w * val w' = 0 → Close (b * b') (mulIeee w w') := fun e e' => Or.inl ⟨e, by
    have := (mul_near f f' (by rw [e', abs_zero]; unfold maxFin; positivity)).2 (by rw [e']; exact exact_zero)
    rw [this, e']⟩
  have hdeg' : (b.2.2 * b'.2.2).natDegree ≤ 2 := hdeg
  by_cases hb : b.2.2 = 0
  · rcases h (by rw [hb]; simp) f with ⟨rfl, h0⟩ | ⟨h1, -⟩
    · exact zero (zero_mul _) (by rw [h0, zero_mul])
    · exact absurd hb h1
  by_cases hb' : b'.2.2 = 0
  · rcases h' (by rw [hb']; simp) f' with ⟨rfl, h0⟩ | ⟨h1, -⟩
    · exact zero (mul_zero _) (by rw [h0, mul_zero])
    · exact absurd hb' h1
  have dm := natDegree_mul hb hb'
  rcases h (by omega) f with ⟨rfl, -⟩ | ⟨h1, h2, h4, h5, h6, h7⟩
  · exact absurd rfl hb
  rcases h' (by omega) f' with ⟨rfl, -⟩ | ⟨h1', h2', h4', h5', h6', h7'⟩
  · exact absurd rfl hb'
  have t1 := h7 (by omega)
  have t2 := h7' (by omega)
  have ht := tiny_pos
  have hA : 0 ≤ b.2.1 := ht.le.trans t1
  have hA' : 0 ≤ b'.2.1 := ht.le.trans t2
  have hvm : |b.1 * b'.1| ≤ b.2.1 * b'.2.1 := by rw [abs_mul]; exact mul_le_mul h4 h4' (abs_nonneg _) hA
  have hsq : tiny ^ 2 ≤ b.2.1 * b'.2.1 := by rw [pow_two]; exact mul_le_mul t1 t2 ht.le hA
  refine .inr ⟨mul_ne_zero h1 h1', ?_, hvm, ?_, hsq, fun hd1 => ?_⟩
  · show 1 ≤ (b.2.2 * b'.2.2).natDegree
    omega
  · exact (slack_step hsq hvm (mul_step ulp_nonneg h4 h4' h5 h5') (mul_near_fin hfin)).trans
      (mul_le_mul_of_nonneg_right (growth_mono ulp_nonneg (steps_mul h1 h1' h2 h2')) (mul_nonneg hA hA'))
  · exfalso
    have hd1' : (b.2.2 * b'.2.2).natDegree = 1 := hd1
    omega

theorem aluW_rel (div : F32.W → F32.W → F32.W) : AluRel FollowsW ring exactAlu (F32.alu div) where
  zero _ _ := .inl ⟨rfl, val_zero⟩
  op o ho a b a' b' ha hb := by
    cases o with
    | add => exact addW_follows ha hb
    | mul => exact mulW_follows ha hb
    | sub | div => simp [ring] at ho
  fma _ _ _ _ _ _ _ ha hb hc := fmaW_follows ha hb hc

/-! ## Which elements go into the result -/

/-- Exact arithmetic on polynomials. -/
noncomputable def polyAlu : Alu ℕ[X] where
  zero := 0
  op
    | .add, a, b => a + b
    | .mul, a, b => a * b
    | _, _, _ => 0
  fma a b c := a * b + c

theorem polyAlu_exact : Asm.Exact polyAlu := ⟨rfl, fun _ _ => rfl, fun _ _ => rfl, fun _ _ _ => rfl⟩

/-- If `w` is finite and the marked element went into it, the statement `F` holds. -/
def Marks (F : Prop) (p : ℕ[X]) (w : F32.W) : Prop := F32.Finite w → 0 < p.natDegree → F

theorem marks_rel (F : Prop) (div : F32.W → F32.W → F32.W) : AluRel (Marks F) ring polyAlu (F32.alu div) where
  zero _ h := by simp [polyAlu] at h
  op o ho a b a' b' ha hb := by
    cases o with
    | add =>
      intro hf hd
      obtain ⟨f1, f2⟩ := add_finite hf
      have := natDegree_add_le a b
      by_cases h : 0 < a.natDegree
      · exact ha f1 h
      · refine hb f2 ?_
        have hd' : 0 < (a + b).natDegree := hd
        have := le_max_iff.mp this
        omega
    | mul =>
      intro hf hd
      obtain ⟨f1, f2⟩ := mul_finite hf
      have := natDegree_mul_le (p := a) (q := b)
      have hd' : 0 < (a * b).natDegree := hd
      by_cases h : 0 < a.natDegree
      · exact ha f1 h
      · exact hb f2 (by omega)
    | sub | div => simp [ring] at ho
  fma _ a b c a' b' c' ha hb hc := by
    intro hf hd
    obtain ⟨f1, f2, f3⟩ := fma_finite hf
    have hd' : 0 < (a * b + c).natDegree := hd
    have h1 := le_max_iff.mp (natDegree_add_le (a * b) c)
    have h2 := natDegree_mul_le (p := a) (q := b)
    by_cases h : 0 < a.natDegree
    · exact ha f1 h
    · by_cases h' : 0 < b.natDegree
      · exact hb f2 h'
      · exact hc f3 (by omega)

/-- The state with the element at `k` marked. -/
noncomputable def marked (k : Nat) (s : St F32.W) : St ℕ[X] :=
  { r := s.r, zf := s.zf, lt := s.lt, v := fun _ _ => 1, mem := fun a => if a = k then X else 1
    out := s.out.map fun _ => 1 }

theorem marked_rel (k : Nat) (s : St F32.W) : StRel (Marks (F32.Finite (s.mem k))) (marked k s) s where
  r := rfl
  zf := rfl
  lt := rfl
  v x l := by intro _ h; simp [marked] at h
  mem a := by
    intro hf h
    by_cases e : a = k
    · rwa [e] at hf
    · simp [marked, e] at h
  out := by
    cases e : s.out with
    | none => simp [marked, e]
    | some a => simp only [marked, e, Option.map_some]; intro _ h; simp at h

theorem natDegree_le_sum {l : List ℕ[X]} {p : ℕ[X]} (h : p ∈ l) : p.natDegree ≤ l.sum.natDegree := by
  induction l with
  | nil => cases h
  | cons q l ih =>
    rw [List.sum_cons]
    rcases List.mem_cons.mp h with rfl | h
    · exact natDegree_le_add _ _
    · rw [add_comm]; exact (ih h).trans (natDegree_le_add _ _)

theorem mark_ne_zero (a k : Nat) : (if a = k then X else 1 : ℕ[X]) ≠ 0 := by
  split
  · exact X_ne_zero
  · exact one_ne_zero

/-- The exact run that belongs to a state. -/
noncomputable def shadowW (s : St F32.W) : St Trace :=
  { r := s.r, zf := s.zf, lt := s.lt, v := fun x l => leafW (s.v x l), mem := fun a => leafW (s.mem a)
    out := s.out.map leafW }

theorem shadowW_rel (s : St F32.W) : StRel FollowsW (shadowW s) s where
  r := rfl
  zf := rfl
  lt := rfl
  v x l := leafW_follows _
  mem a := leafW_follows _
  out := by
    cases e : s.out with
    | none => simp [shadowW, e]
    | some a => simpa [shadowW, e] using leafW_follows a

/-! ## No stores -/

def Line.noStore : Line → Bool
  | .i (.st _ _ _) => false
  | _ => true

theorem exec_mem {R : Type} {E : Env R} {x : Ins} {s t : St R} (hx : (Line.i x).noStore = true)
    (h : exec E x s = some t) : t.mem = s.mem := by
  cases x with
  | st => simp [Line.noStore] at hx
  | subQ | decQ | ld =>
    simp only [exec] at h
    split at h
    · cases h; rfl
    · cases h
  | op2 | op3 | fma =>
    simp only [exec, Option.bind_eq_bind] at h
    obtain ⟨f, -, h⟩ := Option.bind_eq_some_iff.mp h
    cases h; rfl
  | _ => simp only [exec] at h; cases h; rfl

theorem mem_after {l : Lbl} {x : Line} : ∀ {code : List Line}, x ∈ after l code → x ∈ code
  | [], h => h
  | y :: code, h => by
    cases y with
    | label k =>
      simp only [after] at h
      split at h
      · exact List.mem_cons_of_mem _ h
      · exact List.mem_cons_of_mem _ (mem_after h)
    | _ => exact List.mem_cons_of_mem _ (mem_after h)

theorem run_mem {R : Type} {E : Env R} {code : List Line} (hc : ∀ x ∈ code, x.noStore = true) :
    ∀ {l s t}, (∀ x ∈ l, x.noStore = true) → Run E code l s t → t.mem = s.mem := by
  intro l s t hl h
  induction h with
  | label _ ih => exact ih fun x hx => hl x (List.mem_cons_of_mem _ hx)
  | ins he _ ih =>
    rw [ih fun x hx => hl x (List.mem_cons_of_mem _ hx)]
    exact exec_mem (hl _ List.mem_cons_self) he
  | jmp _ ih => exact ih fun x hx => hc x (mem_after hx)
  | taken _ _ ih => exact ih fun x hx => hc x (mem_after hx)
  | falls _ _ ih => exact ih fun x hx => hl x (List.mem_cons_of_mem _ hx)
  | ret => rfl

theorem dotProdFn_noStore (cpu : Cpu) (sz : Sz) : ∀ x ∈ dotProdFn cpu sz, x.noStore = true := by
  cases sz <;> simp only [dotProdFn] <;> split <;> decide

theorem sumFn_noStore (cpu : Cpu) (sz : Sz) : ∀ x ∈ sumFn cpu sz, x.noStore = true := by
  cases sz <;> simp only [sumFn] <;> split <;> decide

/-! ## The routines -/

theorem sum_leafW (l : List F32.W) :
    (l.map leafW).sum = ((l.map val).sum, (l.map fun w => |val w| + tiny).sum, (l.length : ℕ[X]) * X) := by
  induction l with
  | nil => simp; rfl
  | cons a l ih =>
    simp only [List.map_cons, List.sum_cons, ih, leafW, List.length_cons, Prod.mk_add_mk, Nat.cast_add, Nat.cast_one]
    rw [show ((l.length : ℕ[X]) + 1) * X = X + (l.length : ℕ[X]) * X by ring]

theorem dot_leafW : ∀ l k : List F32.W, (List.zipWith (· * ·) (l.map leafW) (k.map leafW)).sum =
    ((List.zipWith (fun a b => val a * val b) l k).sum,
      (List.zipWith (fun a b => (|val a| + tiny) * (|val b| + tiny)) l k).sum,
      ((List.zipWith (fun a b => val a * val b) l k).length : ℕ[X]) * X ^ 2)
  | [], _ => by simp; rfl
  | _ :: _, [] => by simp; rfl
  | a :: l, b :: k => by
    simp only [List.map_cons, List.zipWith_cons_cons, List.sum_cons, dot_leafW l k, leafW, List.length_cons,
      Prod.mk_add_mk, Prod.mk_mul_mk, Nat.cast_add, Nat.cast_one]
    congr 2
    ring

theorem natDegree_terms (n d : Nat) : ((n : ℕ[X]) * X ^ d).natDegree ≤ d := by
  have h : (n : ℕ[X]) = C n := by simp
  rw [h]; exact natDegree_C_mul_X_pow_le _ _

theorem followsW_bound {v A : ℝ} {w : F32.W} {n d : Nat} (hd : d ≤ 2) (h : FollowsW (v, A, (n : ℕ[X]) * X ^ d) w)
    (hf : F32.Finite w) (h0 : n = 0 → v = 0 ∧ A = 0) : |val w - v| ≤ growth ulp (n + d - 2) * A := by
  have hdg : ((v, A, (n : ℕ[X]) * X ^ d) : Trace).2.2.natDegree ≤ 2 := (natDegree_terms n d).trans hd
  by_cases hn : n = 0
  · obtain ⟨rfl, rfl⟩ := h0 hn
    subst hn
    rcases h hdg hf with ⟨-, h⟩ | ⟨h, -⟩
    · simp [h]
    · simp at h
  · have hne : (n : ℕ[X]) * X ^ d ≠ 0 := mul_ne_zero (by simpa using hn) (pow_ne_zero _ X_ne_zero)
    rcases h hdg hf with ⟨h, -⟩ | ⟨-, -, -, h, -⟩
    · exact absurd (congrArg (fun b : Trace => b.2.2) h) hne
    · simpa only [steps_monomial hn] using h

theorem out_rel {R Q : Type} {P : R → Q → Prop} {S : St R} {t : St Q} {b : R} (h : StRel P S t)
    (hb : S.out = some b) : ∃ a, t.out = some a ∧ P b a := by
  have ho := h.out
  rw [hb] at ho
  cases e : t.out with
  | none => rw [e] at ho; exact ho.elim
  | some a => rw [e] at ho; exact ⟨a, rfl, ho⟩

theorem elems_leafW (es : Nat) (m : Nat → F32.W) (p n : Nat) :
    elems es (fun a => leafW (m a)) p n = (elems es m p n).map leafW := by
  simp [elems, Function.comp_def]

theorem dot_marked (es : Nat) (x1 x2 n k i : Nat) (hi : i < n) (hk : k = x1 + es * i ∨ k = x2 + es * i) :
    0 < (List.zipWith (· * ·) (elems es (fun a => if a = k then X else 1 : Nat → ℕ[X]) x1 n)
      (elems es (fun a => if a = k then X else 1 : Nat → ℕ[X]) x2 n)).sum.natDegree := by
  have hm : (if x1 + es * i = k then X else 1 : ℕ[X]) * (if x2 + es * i = k then X else 1) ∈
      List.zipWith (· * ·) (elems es (fun a => if a = k then X else 1 : Nat → ℕ[X]) x1 n)
        (elems es (fun a => if a = k then X else 1 : Nat → ℕ[X]) x2 n) := by
    rw [List.mem_iff_getElem]
    exact ⟨i, by simp [elems, hi], by simp [elems]⟩
  refine lt_of_lt_of_le ?_ (natDegree_le_sum hm)
  rw [natDegree_mul (mark_ne_zero _ _) (mark_ne_zero _ _)]
  rcases hk with rfl | rfl
  · simp
  · simp

/-- **C79 for float32.** `DotProd32` on any processor, any words in memory and registers: it returns; when the result is
finite, all elements are finite and the result is within the bound. -/
theorem dotProd_f32 (div : F32.W → F32.W → F32.W) (cpu : Cpu) {x1 x2 : Sl} (h2 : x1.len ≤ x2.len) (hal : x2.base % 4 = 0)
    (s : St F32.W) :
    ∃ s' w, (∀ t, Call (frame2 4 (F32.alu div) x1 x2) (dotProdFn cpu .f32) s t ↔ t = s') ∧ s'.out = some w ∧
      s'.mem = s.mem ∧
      (F32.Finite w →
        (∀ v ∈ elems 4 s.mem x1.base x1.len ++ elems 4 s.mem x2.base x1.len, F32.Finite v) ∧
        |val w - (List.zipWith (fun a b => val a * val b) (elems 4 s.mem x1.base x1.len)
            (elems 4 s.mem x2.base x1.len)).sum| ≤
          growth ulp x1.len * (List.zipWith (fun a b => (|val a| + tiny) * (|val b| + tiny))
            (elems 4 s.mem x1.base x1.len) (elems 4 s.mem x2.base x1.len)).sum) := by
  obtain ⟨S', hS, ho, -⟩ := dotProd_kernel cpu .f32 exactAlu exactAlu_exact h2 hal (shadowW s)
  have hE : EnvRel FollowsW ring (frame2 4 exactAlu x1 x2) (frame2 4 (F32.alu div) x1 x2) :=
    ⟨rfl, rfl, rfl, rfl, (aluW_rel div).zero, aluW_rel div⟩
  obtain ⟨t, ht, hrel⟩ := call_rel hE (dotProdFn_uses cpu .f32) ((hS S').mpr rfl) (shadowW_rel s)
  obtain ⟨w, hw, hf⟩ := out_rel hrel ho
  refine ⟨t, w, fun t' => ⟨fun h => Run.det h ht, fun h => h ▸ ht⟩, hw,
    run_mem (dotProdFn_noStore cpu .f32) (dotProdFn_noStore cpu .f32) ht, fun hfin => ⟨?_, ?_⟩⟩
  · have key : ∀ k i, i < x1.len → (k = x1.base + 4 * i ∨ k = x2.base + 4 * i) → F32.Finite (s.mem k) := by
      intro k i hi hk
      obtain ⟨M', hM, hMo, -⟩ := dotProd_kernel cpu .f32 polyAlu polyAlu_exact h2 hal (marked k s)
      have hE' : EnvRel (Marks (F32.Finite (s.mem k))) ring (frame2 4 polyAlu x1 x2) (frame2 4 (F32.alu div) x1 x2) :=
        ⟨rfl, rfl, rfl, rfl, (marks_rel _ div).zero, marks_rel _ div⟩
      obtain ⟨t', ht', hrel'⟩ := call_rel hE' (dotProdFn_uses cpu .f32) ((hM M').mpr rfl) (marked_rel k s)
      obtain ⟨w', hw', hm⟩ := out_rel hrel' hMo
      obtain rfl := Run.det ht' ht
      rw [hw] at hw'; cases hw'
      exact hm hfin (dot_marked 4 x1.base x2.base x1.len k i hi hk)
    intro v hv
    simp only [elems, List.mem_append, List.mem_map, List.mem_range] at hv
    rcases hv with ⟨i, hi, rfl⟩ | ⟨i, hi, rfl⟩
    · exact key _ i hi (.inl rfl)
    · exact key _ i hi (.inr rfl)
  · simp only [shadowW, elems_leafW, dot_leafW, Sz.bytes] at hf
    have hl : (List.zipWith (fun a b => val a * val b) (elems 4 s.mem x1.base x1.len)
      (elems 4 s.mem x2.base x1.len)).length = x1.len := by simp [elems]
    rw [hl] at hf
    exact followsW_bound le_rfl hf hfin (fun h0 => by simp [h0, elems])

/-- **C79 for float32.** `Sum32`, likewise. -/
theorem sum_f32 (div : F32.W → F32.W → F32.W) (cpu : Cpu) {x : Sl} (hal : x.base % 4 = 0) (s : St F32.W) :
    ∃ s' w, (∀ t, Call (frame1 4 (F32.alu div) x) (sumFn cpu .f32) s t ↔ t = s') ∧ s'.out = some w ∧
      s'.mem = s.mem ∧
      (F32.Finite w → (∀ v ∈ elems 4 s.mem x.base x.len, F32.Finite v) ∧
        |val w - ((elems 4 s.mem x.base x.len).map val).sum| ≤
          growth ulp (x.len - 1) * ((elems 4 s.mem x.base x.len).map fun v => |val v| + tiny).sum) := by
  obtain ⟨S', hS, ho, -⟩ := sum_kernel cpu .f32 exactAlu exactAlu_exact hal (shadowW s)
  have hE : EnvRel FollowsW ring (frame1 4 exactAlu x) (frame1 4 (F32.alu div) x) :=
    ⟨rfl, rfl, rfl, rfl, (aluW_rel div).zero, aluW_rel div⟩
  obtain ⟨t, ht, hrel⟩ := call_rel hE (sumFn_uses cpu .f32) ((hS S').mpr rfl) (shadowW_rel s)
  obtain ⟨w, hw, hf⟩ := out_rel hrel ho
  refine ⟨t, w, fun t' => ⟨fun h => Run.det h ht, fun h => h ▸ ht⟩, hw,
    run_mem (sumFn_noStore cpu .f32) (sumFn_noStore cpu .f32) ht, fun hfin => ⟨?_, ?_⟩⟩
  · intro v hv
    simp only [elems, List.mem_map, List.mem_range] at hv
    obtain ⟨i, hi, rfl⟩ := hv
    obtain ⟨M', hM, hMo, -⟩ := sum_kernel cpu .f32 polyAlu polyAlu_exact hal (marked (x.base + 4 * i) s)
    have hE' : EnvRel (Marks (F32.Finite (s.mem (x.base + 4 * i)))) ring (frame1 4 polyAlu x) (frame1 4 (F32.alu div) x) :=
      ⟨rfl, rfl, rfl, rfl, (marks_rel _ div).zero, marks_rel _ div⟩
    obtain ⟨t', ht', hrel'⟩ := call_rel hE' (sumFn_uses cpu .f32) ((hM M').mpr rfl) (marked_rel _ s)
    obtain ⟨w', hw', hm⟩ := out_rel hrel' hMo
    obtain rfl := Run.det ht' ht
    rw [hw] at hw'; cases hw'
    refine hm hfin (lt_of_lt_of_le ?_ (natDegree_le_sum (p := X) ?_))
    · simp
    · simp only [elems, List.mem_map, List.mem_range, Sz.bytes]
      exact ⟨i, hi, by simp [marked]⟩
  · simp only [shadowW, elems_leafW, sum_leafW, Sz.bytes] at hf
    have hl : (elems 4 s.mem x.base x.len).length = x.len := by simp [elems]
    rw [hl, ← pow_one (X : ℕ[X])] at hf
    exact followsW_bound (by norm_num) hf hfin (fun h0 => by simp [h0, elems])

/-! ## The portable loops -/

theorem dotLoop_rel {R Q : Type} {P : R → Q → Prop} {A : Alu R} {A' : Alu Q} (hA : AluRel P ring A A') {es x1 x2 : Nat}
    {m : Nat → R} {m' : Nat → Q} (hm : ∀ a, P (m a) (m' a)) :
    ∀ k i y y', P y y' → P (dotLoop A es x1 x2 m k i y) (dotLoop A' es x1 x2 m' k i y')
  | 0, _, _, _, h => h
  | k + 1, i, _, _, h =>
    dotLoop_rel hA hm k (i + 1) _ _ (hA.op .add rfl _ _ _ _ h (hA.op .mul rfl _ _ _ _ (hm _) (hm _)))

theorem sumLoop_rel {R Q : Type} {P : R → Q → Prop} {A : Alu R} {A' : Alu Q} (hA : AluRel P ring A A') {es x : Nat}
    {m : Nat → R} {m' : Nat → Q} (hm : ∀ a, P (m a) (m' a)) :
    ∀ k i y y', P y y' → P (sumLoop A es x m k i y) (sumLoop A' es x m' k i y')
  | 0, _, _, _, h => h
  | k + 1, i, _, _, h => sumLoop_rel hA hm k (i + 1) _ _ (hA.op .add rfl _ _ _ _ h (hm _))

/-- **C79 for float32.** The portable loop, likewise. -/
theorem puregoDot_f32 (div : F32.W → F32.W → F32.W) {x1 x2 : Sl} (h2 : x1.len ≤ x2.len) (m : Nat → F32.W) :
    ∃ w, puregoDot (F32.alu div) 4 x1 x2 m = some w ∧
      (F32.Finite w → |val w - (List.zipWith (fun a b => val a * val b) (elems 4 m x1.base x1.len)
            (elems 4 m x2.base x1.len)).sum| ≤
          growth ulp x1.len * (List.zipWith (fun a b => (|val a| + tiny) * (|val b| + tiny))
            (elems 4 m x1.base x1.len) (elems 4 m x2.base x1.len)).sum) := by
  by_cases h0 : x1.len = 0
  · refine ⟨0, by simp [puregoDot, h0]; rfl, fun _ => ?_⟩
    rw [val_zero]
    simp [h0, elems]
  refine ⟨_, by rw [puregoDot, if_neg h0, if_neg (by omega)], fun hfin => ?_⟩
  have hf := dotLoop_rel (aluW_rel div) (es := 4) (x1 := x1.base) (x2 := x2.base) (fun a => leafW_follows (m a)) x1.len 0
    exactAlu.zero (F32.alu div).zero (aluW_rel div).zero
  rw [dotLoop_eq exactAlu_exact] at hf
  have e : exactAlu.zero + ((List.range x1.len).map fun j =>
      leafW (m (x1.base + 4 * (0 + j))) * leafW (m (x2.base + 4 * (0 + j)))).sum =
      (List.zipWith (· * ·) ((elems 4 m x1.base x1.len).map leafW) ((elems 4 m x2.base x1.len).map leafW)).sum := by
    rw [show exactAlu.zero = (0 : Trace) from rfl, zero_add]
    simp [elems, List.zipWith_map, List.zipWith_self]
  rw [e, dot_leafW] at hf
  have hl : (List.zipWith (fun a b => val a * val b) (elems 4 m x1.base x1.len)
    (elems 4 m x2.base x1.len)).length = x1.len := by simp [elems]
  rw [hl] at hf
  exact followsW_bound le_rfl hf hfin (fun h0 => by simp [h0, elems])

/-- **C79 for float32.** -/
theorem puregoSum_f32 (div : F32.W → F32.W → F32.W) (x : Sl) (m : Nat → F32.W) (hfin : F32.Finite (puregoSum (F32.alu div) 4 x m)) :
    |val (puregoSum (F32.alu div) 4 x m) - ((elems 4 m x.base x.len).map val).sum| ≤
      growth ulp (x.len - 1) * ((elems 4 m x.base x.len).map fun v => |val v| + tiny).sum := by
  have hf := sumLoop_rel (aluW_rel div) (es := 4) (x := x.base) (fun a => leafW_follows (m a)) x.len 0
    exactAlu.zero (F32.alu div).zero (aluW_rel div).zero
  rw [sumLoop_eq exactAlu_exact] at hf
  have e : exactAlu.zero + ((List.range x.len).map fun j => leafW (m (x.base + 4 * (0 + j)))).sum =
      ((elems 4 m x.base x.len).map leafW).sum := by
    rw [show exactAlu.zero = (0 : Trace) from rfl, zero_add]
    simp [elems, Function.comp_def]
  rw [e, sum_leafW] at hf
  have hl : (elems 4 m x.base x.len).length = x.len := by simp [elems]
  rw [hl, ← pow_one (X : ℕ[X])] at hf
  exact followsW_bound (by norm_num) hf hfin (fun h0 => by simp [h0, elems])

/-! ## When the result is finite -/

theorem stays_step {w : F32.W} {x v A : ℝ} {n N : Nat} (hA : 1 ≤ A) (hv : |v| ≤ A) (h : |x - v| ≤ growth ulp n * A)
    (hN : n + 1 ≤ N) (hmax : (1 + growth ulp N) * A ≤ maxFin) (hfin : |x| ≤ maxFin → F32.Finite w)
    (hnear : F32.Finite w → |val w - x| ≤ slack x) : F32.Finite w ∧ |val w - v| ≤ growth ulp N * A := by
  have hg := growth_nonneg ulp_nonneg n
  have hx : |x| ≤ maxFin := by
    have h2 : |x| ≤ |v| + |x - v| := by
      have := abs_add_le v (x - v); rwa [add_sub_cancel] at this
    have h3 := mul_le_mul_of_nonneg_right (growth_mono ulp_nonneg (show n ≤ N by omega)) (show 0 ≤ A by linarith)
    linarith
  refine ⟨hfin hx, ?_⟩
  have ht : tiny ^ 2 ≤ A := by have := tiny_pos; have := tiny_le_one; nlinarith
  exact (slack_step ht hv h (hnear (hfin hx))).trans
    (mul_le_mul_of_nonneg_right (growth_mono ulp_nonneg hN) (by linarith))

theorem max_le_of {n N : Nat} {A B : ℝ} (hn : n ≤ N) (hA : 0 ≤ A) (hAB : A ≤ B) (h : (1 + growth ulp N) * B ≤ maxFin) :
    (1 + growth ulp n) * A ≤ maxFin := by
  have h1 := growth_mono ulp_nonneg hn
  have h2 := growth_nonneg ulp_nonneg n
  refine le_trans ?_ h
  gcongr
  linarith

/-- **C79 for float32.** Finite elements give a finite result, and then the bound, as long as the sum of the products of
the magnitudes (with 1 for smaller ones) is not above the largest number by the growth of the errors: no intermediate
overflow of the portable loop. -/
theorem puregoDot_finite (div : F32.W → F32.W → F32.W) {x1 x2 : Sl} (h2 : x1.len ≤ x2.len) (m : Nat → F32.W)
    (hfin : ∀ v ∈ elems 4 m x1.base x1.len ++ elems 4 m x2.base x1.len, F32.Finite v)
    (hmax : (1 + growth ulp x1.len) * (List.zipWith (fun a b => max |val a| 1 * max |val b| 1)
        (elems 4 m x1.base x1.len) (elems 4 m x2.base x1.len)).sum ≤ maxFin) :
    ∃ w, puregoDot (F32.alu div) 4 x1 x2 m = some w ∧ F32.Finite w := by
  by_cases h0 : x1.len = 0
  · exact ⟨0, by simp [puregoDot, h0]; rfl, by unfold F32.Finite; decide⟩
  refine ⟨_, by rw [puregoDot, if_neg h0, if_neg (by omega)], ?_⟩
  have fin1 : ∀ i, i < x1.len → F32.Finite (m (x1.base + 4 * i)) := fun i hi => hfin _ (by
    simp only [elems, List.mem_append, List.mem_map, List.mem_range]; exact .inl ⟨i, hi, rfl⟩)
  have fin2 : ∀ i, i < x1.len → F32.Finite (m (x2.base + 4 * i)) := fun i hi => hfin _ (by
    simp only [elems, List.mem_append, List.mem_map, List.mem_range]; exact .inr ⟨i, hi, rfl⟩)
  set f : Nat → ℝ := fun i => val (m (x1.base + 4 * i)) * val (m (x2.base + 4 * i)) with hf
  set g : Nat → ℝ := fun i => max |val (m (x1.base + 4 * i))| 1 * max |val (m (x2.base + 4 * i))| 1 with hg
  have hfg : ∀ i, |f i| ≤ g i := fun i => by
    rw [hf, hg]; simp only [abs_mul]
    exact mul_le_mul (le_max_left _ _) (le_max_left _ _) (abs_nonneg _) (le_trans (abs_nonneg _) (le_max_left _ _))
  have hg1 : ∀ i, 1 ≤ g i := fun i => by
    have a := le_max_right |val (m (x1.base + 4 * i))| 1
    have b := le_max_right |val (m (x2.base + 4 * i))| 1
    rw [hg]; simp only; nlinarith
  have hsum : (List.zipWith (fun a b => max |val a| 1 * max |val b| 1)
        (elems 4 m x1.base x1.len) (elems 4 m x2.base x1.len)).sum = ∑ i ∈ Finset.range x1.len, g i := by
    have e : ∑ i ∈ Finset.range x1.len, g i = ((List.range x1.len).map g).sum := rfl
    rw [e]
    simp [elems, List.zipWith_map, List.zipWith_self, hg]
  rw [hsum] at hmax
  have key : ∀ k i y, i + k = x1.len → F32.Finite y →
      |val y - ∑ j ∈ Finset.range i, f j| ≤ growth ulp i * ∑ j ∈ Finset.range i, g j →
      F32.Finite (dotLoop (F32.alu div) 4 x1.base x2.base m k i y) := by
    intro k
    induction k with
    | zero => intro i y _ hy _; exact hy
    | succ k ih =>
      intro i y hik hy herr
      have hi : i < x1.len := by omega
      set G := ∑ j ∈ Finset.range i, g j with hG
      have hG0 : 0 ≤ G := Finset.sum_nonneg fun j _ => by linarith [hg1 j]
      have hF : |∑ j ∈ Finset.range i, f j| ≤ G :=
        (Finset.abs_sum_le_sum_abs _ _).trans (Finset.sum_le_sum fun j _ => hfg j)
      have hGle : G + g i ≤ ∑ j ∈ Finset.range x1.len, g j := by
        rw [hG, ← Finset.sum_range_succ]
        exact Finset.sum_le_sum_of_subset_of_nonneg (by simpa using hi) fun j _ _ => by linarith [hg1 j]
      have hmono : ∀ n ≤ x1.len, (1 + growth ulp n) * (G + g i) ≤ maxFin := fun n hn =>
        max_le_of hn (by linarith [hg1 i]) hGle hmax
      have gi := hg1 i
      have ge0 := growth_nonneg ulp_nonneg i
      have hmul := stays_step (w := mulIeee (m (x1.base + 4 * i)) (m (x2.base + 4 * i))) (x := f i) (v := f i) (n := 0)
        (N := 1) gi (hfg i) (by simp [growth_zero]) (by omega)
        (max_le_of (show 1 ≤ x1.len by omega) (by linarith) (by linarith) hmax)
        (fun h => (mul_near (fin1 i hi) (fin2 i hi) h).1.1) mul_near_fin
      have hx : |val y + val (mulIeee (m (x1.base + 4 * i)) (m (x2.base + 4 * i))) -
          (∑ j ∈ Finset.range i, f j + f i)| ≤ growth ulp (max i 1) * (G + g i) := by
        rw [add_sub_add_comm, mul_add]
        refine (abs_add_le _ _).trans (add_le_add (herr.trans ?_) (hmul.2.trans ?_))
        · exact mul_le_mul_of_nonneg_right (growth_mono ulp_nonneg (le_max_left _ _)) hG0
        · exact mul_le_mul_of_nonneg_right (growth_mono ulp_nonneg (le_max_right _ _)) (by linarith)
      have hA : |∑ j ∈ Finset.range i, f j + f i| ≤ G + g i := (abs_add_le _ _).trans (add_le_add hF (hfg i))
      rw [dotLoop]
      by_cases hi0 : i = 0
      · -- the first product is added to zero
        subst hi0
        have hy0 : val y = 0 := by simpa [growth_zero] using herr
        have hz := add_zero_val hy hmul.1 (.inl hy0)
        refine ih 1 _ (by omega) (add_fin hy hmul.1 ?_) ?_
        · rw [hy0, zero_add]; exact (finite_exact hmul.1).2
        · show |val (addIeee y (mulIeee (m (x1.base + 4 * 0)) (m (x2.base + 4 * 0)))) - _| ≤ _
          rw [hz, hy0, zero_add, Finset.sum_range_one, Finset.sum_range_one]
          exact hmul.2
      · have hst := stays_step (w := addIeee y (mulIeee (m (x1.base + 4 * i)) (m (x2.base + 4 * i)))) (N := i + 1)
          (show 1 ≤ G + g i by linarith) hA hx (by omega) (hmono (i + 1) (by omega)) (add_fin hy hmul.1) add_near_fin
        refine ih (i + 1) _ (by omega) hst.1 ?_
        rw [Finset.sum_range_succ, Finset.sum_range_succ]
        exact hst.2
  exact key x1.len 0 0 (by omega) (by unfold F32.Finite; decide) (by rw [val_zero]; simp)

/-! ## A run -/

/-- Running at most `n` lines. -/
def runN {R : Type} (E : Env R) (code : List Line) : Nat → List Line → St R → Option (St R)
  | 0, _, _ => none
  | _ + 1, [], _ => none
  | n + 1, .label _ :: rest, s => runN E code n rest s
  | n + 1, .i x :: rest, s => (exec E x s).bind (runN E code n rest)
  | n + 1, .jmp l :: _, s => runN E code n (after l code) s
  | n + 1, .jcc c l :: rest, s => if c.holds s = true then runN E code n (after l code) s else runN E code n rest s
  | _ + 1, .ret :: _, s => some s

theorem runN_run {R : Type} {E : Env R} {code : List Line} :
    ∀ {n l s t}, runN E code n l s = some t → Run E code l s t
  | 0, _, _, _, h => by simp [runN] at h
  | _ + 1, [], _, _, h => by simp [runN] at h
  | n + 1, .label _ :: rest, s, t, h => .label (runN_run (n := n) h)
  | n + 1, .i x :: rest, s, t, h => by
    obtain ⟨s1, h1, h2⟩ := Option.bind_eq_some_iff.mp h
    exact .ins h1 (runN_run h2)
  | n + 1, .jmp l :: _, s, t, h => .jmp (runN_run (n := n) h)
  | n + 1, .jcc c l :: rest, s, t, h => by
    simp only [runN] at h
    split at h
    next hc => exact .taken hc (runN_run h)
    next hc => exact .falls (by simpa using hc) (runN_run h)
  | n + 1, .ret :: _, s, t, h => by
    simp only [runN, Option.some.injEq] at h
    subst h; exact .ret

/-- The elements 1, 2^-24·(1+2^-23), 3 in front of an infinity, all registers NaN. -/
def exampleMem : St F32.W :=
  { r := fun _ => 0, zf := false, lt := false, v := fun _ _ => qNaN
    mem := fun a => if a = 16 then 0x3f800000 else if a = 20 then 0x33800001 else if a = 24 then 0x40400000 else posInf
    out := none }

/-- The result of a concrete call is finite, so the theorem speaks about it; with one element more the infinity shows. -/
example : ∃ s', Call (frame2 4 (F32.alu fun _ _ => qNaN) ⟨16, 3⟩ ⟨16, 3⟩)
      (dotProdFn ⟨false, false, false, false⟩ .f32) exampleMem s' ∧ s'.out = some 0x41200000 ∧
    F32.Finite 0x41200000 := by
  have h : ((runN (frame2 4 (F32.alu fun _ _ => qNaN) ⟨16, 3⟩ ⟨16, 3⟩) (dotProdFn ⟨false, false, false, false⟩ .f32) 200
    (dotProdFn ⟨false, false, false, false⟩ .f32) exampleMem).bind St.out) = some 0x41200000 := by decide +kernel
  obtain ⟨s', h1, h2⟩ := Option.bind_eq_some_iff.mp h
  exact ⟨s', runN_run h1, h2, by unfold F32.Finite; decide⟩

example : ((runN (frame2 4 (F32.alu fun _ _ => qNaN) ⟨16, 4⟩ ⟨16, 4⟩) (dotProdFn ⟨false, false, false, false⟩ .f32) 200
    (dotProdFn ⟨false, false, false, false⟩ .f32) exampleMem).bind St.out) = some posInf := by decide +kernel

end Verif.Asm

namespace Verif.Asm
open Verif.Spec Verif.Spec.Kernels Verif.F32

/-- One times one is finite. -/
example : ∃ w, puregoDot (F32.alu fun _ _ => qNaN) 4 ⟨16, 1⟩ ⟨16, 1⟩ exampleMem.mem = some w ∧ F32.Finite w := by
  have h1 : val (0x3f800000 : F32.W) = 1 := by
    have : unpack 0x3f800000 = (false, 0x800000, -23) := by decide
    unfold val
    rw [this]; norm_num
  refine puregoDot_finite _ (le_refl _) _ ?_ ?_
  · intro v hv
    have : v = 0x3f800000 := by simpa [elems, exampleMem] using hv
    subst this; unfold F32.Finite; decide
  · have e : elems 4 exampleMem.mem 16 1 = [0x3f800000] := by simp [elems, exampleMem]
    show (1 + growth ulp 1) * (List.zipWith _ (elems 4 exampleMem.mem 16 1) (elems 4 exampleMem.mem 16 1)).sum ≤ _
    rw [e]
    simp only [List.zipWith_cons_cons, List.zipWith_nil_right, List.sum_cons, List.sum_nil, h1]
    unfold growth ulp maxFin
    norm_num

end Verif.Asm
