import Verif.Props.Softmax32
import Mathlib.Data.ENat.Basic

set_option autoImplicit false
set_option linter.unusedSimpArgs false
set_option maxRecDepth 10000

/-!
# C84: a vector with minus infinity only

The premise of `softmax_runs` that one element is finite cannot be dropped.  Minus infinity minus minus infinity is a NaN; the
vector routine of the exponential makes a large number of a NaN (the clamp at its beginning), `math.Exp` keeps it.  So the
result depends on the length and on the processor: zeros only when the length is a multiple of the width of the routine, NaN
only otherwise.
-/

namespace Verif.Softmax32
open Verif.F32 Verif.Asm Verif.Spec Verif.Spec.Kernels Verif.Spec.Softmax32

/-- What the vector routines make of a NaN: 2.4 * 10^38. -/
def large : F32.W := 0x7f3504a4

theorem kernel_nan (cpu : Cpu) (j : ExpLog.Lane) : (expKernel cpu j).2 qNaN = large := by
  have key : ExpLog.lane ieee ExpLog.expAVX j qNaN = large := by
    rw [ExpLog.lane_junk ieee j ⟨0, 0, 0, 0, 0, 0, 0⟩ qNaN _ List.mem_cons_self]
    decide +kernel
  unfold expKernel
  split
  · exact key
  · show ExpLog.lane ieee ExpLog.expSSE j qNaN = _
    rw [← ExpLog.exp_avx_eq_sse_ieee j j qNaN]
    exact key

/-! ## The sum of many large numbers -/

noncomputable def enatAlu : Alu ℕ∞ where
  zero := 0
  op
    | .add, a, b => a + b
    | .mul, a, b => a * b
    | _, _, _ => 0
  fma a b c := a * b + c

theorem enatAlu_exact : Asm.Exact enatAlu := ⟨rfl, fun _ _ => rfl, fun _ _ => rfl, fun _ _ _ => rfl⟩

/-- A sum of `c` numbers `large`; nothing is said for `⊤`. -/
def Overflows (c : ℕ∞) (w : F32.W) : Prop :=
  ∀ n : ℕ, c = n → (n = 0 → w = 0) ∧ (n = 1 → w = large) ∧ (2 ≤ n → w = posInf)

theorem overflows_rel (div : F32.W → F32.W → F32.W) : AluRel Overflows adds enatAlu (F32.alu div) where
  zero n h := by
    have : n = 0 := by
      have h' : (0 : ℕ∞) = n := h
      exact_mod_cast h'.symm
    subst this
    exact ⟨fun _ => rfl, fun h => absurd h (by omega), fun h => absurd h (by omega)⟩
  fma h := by simp [adds] at h
  op o ho a b a' b' ha hb := by
    cases o with
    | add =>
      intro n hn
      have hn' : a + b = n := hn
      have hat : a ≠ ⊤ := fun h => by rw [h, top_add] at hn'; exact ENat.coe_ne_top n hn'.symm
      have hbt : b ≠ ⊤ := fun h => by rw [h, add_top] at hn'; exact ENat.coe_ne_top n hn'.symm
      obtain ⟨p, hp⟩ := ENat.ne_top_iff_exists.mp hat
      obtain ⟨q, hq⟩ := ENat.ne_top_iff_exists.mp hbt
      obtain ⟨p0, p1, p2⟩ := ha p hp.symm
      obtain ⟨q0, q1, q2⟩ := hb q hq.symm
      have e : p + q = n := by rw [← hp, ← hq] at hn'; exact_mod_cast hn'
      show (n = 0 → addIeee a' b' = 0) ∧ (n = 1 → addIeee a' b' = large) ∧ (2 ≤ n → addIeee a' b' = posInf)
      have hp' : p = 0 ∨ p = 1 ∨ 2 ≤ p := by omega
      have hq' : q = 0 ∨ q = 1 ∨ 2 ≤ q := by omega
      rcases hp' with hp' | hp' | hp' <;> rcases hq' with hq' | hq' | hq' <;>
        (first | rw [p0 hp'] | rw [p1 hp'] | rw [p2 hp']) <;>
        (first | rw [q0 hq'] | rw [q1 hq'] | rw [q2 hq']) <;>
        refine ⟨fun h => ?_, fun h => ?_, fun h => ?_⟩ <;> first | omega | decide +kernel
    | mul | sub | div => simp [adds] at ho

/-- The counting run. -/
def countedE (x : Asm.Sl) (s : St F32.W) : St ℕ∞ :=
  { r := s.r, zf := s.zf, lt := s.lt, v := fun _ _ => ⊤, mem := fun a => if x.has 4 a then 1 else ⊤
    out := s.out.map fun _ => ⊤ }

theorem overflows_top (w : F32.W) : Overflows ⊤ w := fun n h => absurd h.symm (ENat.coe_ne_top n)

theorem has_elem {x : Asm.Sl} {i : Nat} (hi : i < x.len) : x.has 4 (x.base + 4 * i) = true := by
  simp only [Sl.has, List.any_eq_true, List.mem_range, beq_iff_eq]
  exact ⟨i, hi, rfl⟩

theorem countedE_rel {x : Asm.Sl} {s : St F32.W} (hx : ∀ i < x.len, s.mem (x.base + 4 * i) = large) :
    StRel Overflows (countedE x s) s where
  r := rfl
  zf := rfl
  lt := rfl
  v _ _ := overflows_top _
  mem a := by
    show Overflows (if x.has 4 a then 1 else ⊤) (s.mem a)
    split
    · rename_i h
      simp only [Sl.has, List.any_eq_true, List.mem_range, beq_iff_eq] at h
      obtain ⟨i, hi, rfl⟩ := h
      intro n hn
      have : n = 1 := by exact_mod_cast hn.symm
      subst this
      exact ⟨fun h => absurd h (by omega), fun _ => hx i hi, fun h => absurd h (by omega)⟩
    · exact overflows_top _
  out := by
    cases e : s.out with
    | none => simp [countedE, e]
    | some a => simp only [countedE, e, Option.map_some]; exact overflows_top _

theorem sum_large (div : F32.W → F32.W → F32.W) (cpu : Cpu) {x : Asm.Sl} (hal : x.base % 4 = 0) (s : St F32.W)
    (hlen : 2 ≤ x.len) (hx : ∀ i < x.len, s.mem (x.base + 4 * i) = large) :
    ∃ s', (∀ t, Call (frame1 4 (F32.alu div) x) (sumFn cpu .f32) s t ↔ t = s') ∧ s'.out = some posInf ∧
      s'.mem = s.mem := by
  obtain ⟨s', w, h1, h2, h3, -⟩ := sum_f32 div cpu hal s
  obtain ⟨S', hS, ho, -⟩ := sum_kernel cpu .f32 enatAlu enatAlu_exact hal (countedE x s)
  have hE : EnvRel Overflows adds (frame1 4 enatAlu x) (frame1 4 (F32.alu div) x) :=
    ⟨rfl, rfl, rfl, rfl, (overflows_rel div).zero, overflows_rel div⟩
  obtain ⟨t, ht, hrel⟩ := call_rel hE (sumFn_adds cpu .f32) ((hS S').mpr rfl) (countedE_rel hx)
  obtain ⟨w', hw', hf⟩ := out_rel hrel ho
  obtain rfl := (h1 t).mp ht
  rw [h2] at hw'; cases hw'
  have hc : (elems Sz.f32.bytes (countedE x s).mem x.base x.len) = (List.range x.len).map fun _ => 1 := by
    unfold elems
    refine List.map_congr_left fun i hi => ?_
    show (if x.has 4 (x.base + 4 * i) then 1 else ⊤) = 1
    rw [if_pos (has_elem (List.mem_range.mp hi))]
  rw [hc] at hf
  have := (hf x.len (by simp)).2.2 hlen
  exact ⟨t, h1, by rw [h2, this], h3⟩

/-! ## A NaN in the sum -/

/-- A marked element went into the number, and it is a NaN. -/
def Spoils (c : ℕ) (w : F32.W) : Prop := 0 < c → isNaN w = true

theorem add_nan {x y : F32.W} (h : isNaN x = true ∨ isNaN y = true) : isNaN (addIeee x y) = true := by
  unfold addIeee
  rw [if_pos (by rcases h with h | h <;> simp [h])]
  decide

theorem mul_nan {x y : F32.W} (h : isNaN x = true ∨ isNaN y = true) : isNaN (mulIeee x y) = true := by
  unfold mulIeee
  rw [if_pos (by rcases h with h | h <;> simp [h])]
  decide

theorem div_nan {x y : F32.W} (h : isNaN x = true ∨ isNaN y = true) : isNaN (divIeee x y) = true := by
  unfold divIeee
  rw [if_pos (by rcases h with h | h <;> simp [h])]
  decide

theorem spoils_rel (div : F32.W → F32.W → F32.W) : AluRel Spoils adds countAlu (F32.alu div) where
  zero h := absurd h (lt_irrefl _)
  fma h := by simp [adds] at h
  op o ho a b a' b' ha hb := by
    cases o with
    | add =>
      intro h
      have h' : 0 < a + b := h
      refine add_nan ?_
      by_cases h1 : 0 < a
      · exact .inl (ha h1)
      · exact .inr (hb (by omega))
    | mul | sub | div => simp [adds] at ho

theorem sum_nan (div : F32.W → F32.W → F32.W) (cpu : Cpu) {x : Asm.Sl} (hal : x.base % 4 = 0) (s : St F32.W)
    (hx : ∃ i < x.len, isNaN (s.mem (x.base + 4 * i)) = true) :
    ∃ s' w, (∀ t, Call (frame1 4 (F32.alu div) x) (sumFn cpu .f32) s t ↔ t = s') ∧ s'.out = some w ∧
      s'.mem = s.mem ∧ isNaN w = true := by
  obtain ⟨k, hk, hkn⟩ := hx
  obtain ⟨s', w, h1, h2, h3, -⟩ := sum_f32 div cpu hal s
  let S : St ℕ := { r := s.r, zf := s.zf, lt := s.lt, v := fun _ _ => 0,
                    mem := fun a => if a = x.base + 4 * k then 1 else 0, out := s.out.map fun _ => 0 }
  obtain ⟨S', hS, ho, -⟩ := sum_kernel cpu .f32 countAlu countAlu_exact hal S
  have hE : EnvRel Spoils adds (frame1 4 countAlu x) (frame1 4 (F32.alu div) x) :=
    ⟨rfl, rfl, rfl, rfl, (spoils_rel div).zero, spoils_rel div⟩
  have h0 : ∀ w, Spoils 0 w := fun w h => absurd h (lt_irrefl _)
  have hrel₀ : StRel Spoils S s := by
    refine ⟨rfl, rfl, rfl, fun _ _ => h0 _, fun a => ?_, ?_⟩
    · show Spoils (if a = x.base + 4 * k then 1 else 0) (s.mem a)
      split
      · rename_i h; subst h; exact fun _ => hkn
      · exact h0 _
    · cases e : s.out with
      | none => simp [S, e]
      | some a => simp only [S, e, Option.map_some]; exact h0 _
  obtain ⟨t, ht, hrel⟩ := call_rel hE (sumFn_adds cpu .f32) ((hS S').mpr rfl) hrel₀
  obtain ⟨w', hw', hf⟩ := out_rel hrel ho
  obtain rfl := (h1 t).mp ht
  rw [h2] at hw'; cases hw'
  refine ⟨t, w, h1, h2, h3, hf ?_⟩
  refine lt_of_lt_of_le Nat.one_pos (List.single_le_sum (fun _ _ => Nat.zero_le _) 1 (mem_elems.mpr ⟨k, hk, ?_⟩))
  exact if_pos rfl

/-! ## The whole function -/

theorem max_masked : ∀ {l : List F32.W}, l ≠ [] → (∀ v ∈ l, v = negInf) → max32 l = some negInf
  | [], h, _ => absurd rfl h
  | v :: l, _, h => by
    have e : ∀ (l : List F32.W), (∀ v ∈ l, v = negInf) → maxLoop negInf l = negInf := by
      intro l
      induction l with
      | nil => intro _; rfl
      | cons a l ih =>
        intro h
        rw [h a List.mem_cons_self]
        show maxLoop (if lt negInf negInf then negInf else negInf) l = negInf
        rw [ite_self]
        exact ih fun v hv => h v (List.mem_cons_of_mem _ hv)
    show some (maxLoop v l) = some negInf
    rw [h v List.mem_cons_self, e l fun v hv => h v (List.mem_cons_of_mem _ hv)]

/-- **C84: a fully masked vector.** The call ends; if the length is a multiple of the number of elements the exponential
takes at once (8 with AVX2, else 4), the result is zeros only, otherwise NaN only. -/
theorem softmax_all_masked (cpu : Cpu) (j : ExpLog.Lane) {scalar : F32.W → F32.W} (hsc : isNaN (scalar qNaN) = true)
    {x out : Asm.Sl} (hlen : out.len = x.len) (hpos : 0 < x.len) (hal : out.base % 4 = 0)
    (hap : Apart 4 x.len x.base out.base) (s : St F32.W) (hx : ∀ i < x.len, s.mem (x.base + 4 * i) = negInf) :
    ∃ s', (∀ t, Runs cpu j scalar x out s t ↔ t = s') ∧
      (x.len % (expKernel cpu j).1 = 0 → ∀ i < x.len, s'.mem (out.base + 4 * i) = 0) ∧
      (x.len % (expKernel cpu j).1 ≠ 0 → ∀ i < x.len, isNaN (s'.mem (out.base + 4 * i)) = true) := by
  have hm : max32 (elems 4 s.mem x.base x.len) = some negInf := by
    refine max_masked ?_ fun v hv => ?_
    · intro h
      have := congrArg List.length h
      rw [elems_length] at this
      simp at this; omega
    · obtain ⟨i, hi, rfl⟩ := mem_elems.mp hv
      exact hx i hi
  obtain ⟨s₁, hc₁, he₁, ho₁⟩ := addConst_kernel cpu .f32 (F32.alu divIeee) (c := flip negInf) (x := x) (y := out)
    (fun a => F32.add_comm' a (flip negInf)) hlen.ge (.inr hap) s
  have hd : ∀ i < x.len, s₁.mem (out.base + 4 * i) = qNaN := by
    intro i hi
    have := elems_inj _ he₁ i hi
    rw [show (s₁.mem (out.base + 4 * i)) = _ from this, show s.mem (x.base + Sz.f32.bytes * i) = negInf from hx i hi]
    decide
  obtain ⟨m₂, hex, hm₂, ho₂⟩ := exp_place cpu j scalar hal s₁.mem
  have hw : (expKernel cpu j).1 = 8 ∨ (expKernel cpu j).1 = 4 := by unfold expKernel; split <;> simp
  set wd := (expKernel cpu j).1 with hwd
  -- the rest, for any sum
  have rest : ∀ s₃ w, (∀ t, Call (frame1 4 (F32.alu divIeee) out) (sumFn cpu .f32) { s₁ with mem := putWords s₁.mem m₂ } t ↔ t = s₃) →
      s₃.out = some w → s₃.mem = putWords s₁.mem m₂ →
      ∃ s', (∀ t, Runs cpu j scalar x out s t ↔ t = s') ∧ ∀ i < x.len,
        s'.mem (out.base + 4 * i) = mulIeee (putWords s₁.mem m₂ (out.base + 4 * i)) (divIeee 0x3f800000 w) := by
    intro s₃ w hc₃ hwo hmem₃
    obtain ⟨s₄, hc₄, he₄, ho₄⟩ := mulConst_kernel cpu .f32 (F32.alu divIeee) (c := divIeee 0x3f800000 w) (x := out) (y := out)
      (fun a => F32.mul_comm' a _) le_rfl (.inl rfl) s₃
    refine ⟨s₄, fun t => ⟨?_, ?_⟩, fun i hi => ?_⟩
    · rintro ⟨m', t₁, n₂, t₃, w', g1, g2, g3, g4, g5, g6⟩
      rw [hm] at g1; cases g1
      obtain rfl := (hc₁ t₁).mp g2
      rw [hex] at g3; cases g3
      obtain rfl := (hc₃ t₃).mp g4
      rw [hwo] at g5; cases g5
      exact (hc₄ t).mp g6
    · rintro rfl
      exact ⟨negInf, s₁, m₂, s₃, w, hm, (hc₁ _).mpr rfl, hex, (hc₃ _).mpr rfl, hwo, (hc₄ _).mpr rfl⟩
    · have := elems_inj _ he₄ i (hlen ▸ hi)
      rw [hmem₃] at this
      exact this
  by_cases hmod : x.len % wd = 0
  · have hall : ∀ i < out.len, putWords s₁.mem m₂ (out.base + 4 * i) = large := by
      intro i hi
      rw [hm₂ i hi, hd i (hlen ▸ hi), if_pos, kernel_nan]
      have := Nat.div_add_mod x.len wd
      rw [hlen] at hi ⊢
      rw [hmod, add_zero, Nat.mul_comm] at this
      omega
    have h2 : 2 ≤ out.len := by
      rw [hlen]
      rcases hw with h | h <;> rw [h] at hmod <;> omega
    obtain ⟨s₃, hc₃, hwo, hmem₃⟩ := sum_large divIeee cpu hal { s₁ with mem := putWords s₁.mem m₂ } h2 hall
    obtain ⟨s', r1, r2⟩ := rest s₃ posInf hc₃ hwo hmem₃
    refine ⟨s', r1, fun _ i hi => ?_, fun h => absurd hmod h⟩
    rw [r2 i hi, hall i (hlen ▸ hi)]
    decide +kernel
  · have hex' : ∃ i < out.len, isNaN (putWords s₁.mem m₂ (out.base + 4 * i)) = true := by
      have hdm := Nat.div_add_mod x.len wd
      rw [Nat.mul_comm] at hdm
      have hlt : x.len / wd * wd < x.len := by omega
      refine ⟨x.len / wd * wd, hlen ▸ hlt, ?_⟩
      rw [hm₂ _ (hlen ▸ hlt), hd _ hlt, if_neg (by rw [hlen]; omega)]
      exact hsc
    obtain ⟨s₃, w, hc₃, hwo, hmem₃, hwn⟩ := sum_nan divIeee cpu hal { s₁ with mem := putWords s₁.mem m₂ } hex'
    obtain ⟨s', r1, r2⟩ := rest s₃ w hc₃ hwo hmem₃
    refine ⟨s', r1, fun h => absurd h hmod, fun _ i hi => ?_⟩
    rw [r2 i hi]
    exact mul_nan (.inr (div_nan (.inr hwn)))

/-- Four masked scores: zeros on a processor without AVX2, NaN on one with it. -/
example (j : ExpLog.Lane) (s : St F32.W) (hs : ∀ a, s.mem a = negInf) :
    (∃ t, Runs ⟨true, false, false, true⟩ j (fun z => if isNaN z then qNaN else 0) ⟨0, 4⟩ ⟨16, 4⟩ s t ∧ t.mem 20 = 0) ∧
    (∃ t, Runs ⟨true, true, true, true⟩ j (fun z => if isNaN z then qNaN else 0) ⟨0, 4⟩ ⟨16, 4⟩ s t ∧ isNaN (t.mem 20) = true) := by
  have hap : Apart 4 4 0 16 := fun i j h1 h2 => by omega
  constructor
  · obtain ⟨t, h1, h2, -⟩ := softmax_all_masked ⟨true, false, false, true⟩ j (scalar := fun z => if isNaN z then qNaN else 0)
      (by decide) (x := ⟨0, 4⟩) (out := ⟨16, 4⟩) rfl (by decide) (by decide) hap s (fun i _ => hs _)
    exact ⟨t, (h1 t).mpr rfl, h2 (by simp [expKernel]) 1 (by decide)⟩
  · obtain ⟨t, h1, -, h2⟩ := softmax_all_masked ⟨true, true, true, true⟩ j (scalar := fun z => if isNaN z then qNaN else 0)
      (by decide) (x := ⟨0, 4⟩) (out := ⟨16, 4⟩) rfl (by decide) (by decide) hap s (fun i _ => hs _)
    exact ⟨t, (h1 t).mpr rfl, h2 (by simp [expKernel]) 1 (by decide)⟩

end Verif.Softmax32
