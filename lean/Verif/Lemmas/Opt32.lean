import Verif.Spec.Opt32
import Verif.Lemmas.Norm32Sum

set_option autoImplicit false
set_option linter.unusedSimpArgs false

/-!
# SGD, AdaGrad and RMSProp on 32-bit words, element by element (C95)
-/

namespace Verif.Opt32
open Verif.F32 Verif.Asm Verif.Spec Verif.Spec.Kernels Verif.Net32 Verif.Rec32 Verif.Att32 Verif.Adam32

/-- A step is a function of each element. -/
structure Cellwise (step : Strategy) (f : F32.W → F32.W → F32.W × F32.W → F32.W × F32.W) : Prop where
  runs : ∀ {n : Nat} (alpha : F32.W) {w g s : List F32.W}, w.length = n → s.length = n → g.length = n → ∃ w' s', step alpha w g s w' s'
  cell : ∀ {n : Nat} {alpha : F32.W} {w g s w' s' : List F32.W}, w.length = n → s.length = n → g.length = n → step alpha w g s w' s' →
    w'.length = n ∧ s'.length = n ∧ ∀ i < n, (w'.getD i 0, s'.getD i 0) = f alpha (g.getD i 0) (w.getD i 0, s.getD i 0)

/-- The steps of one element. -/
def run (f : F32.W → F32.W → F32.W × F32.W → F32.W × F32.W) : List (F32.W × F32.W) → F32.W × F32.W → F32.W × F32.W
  | [], c => c
  | (alpha, g) :: l, c => run f l (f alpha g c)

theorem steps_exists {step : Strategy} {f} (h : Cellwise step f) {n : Nat} : ∀ (l : List (F32.W × List F32.W)) {w s : List F32.W},
    w.length = n → s.length = n → (∀ p ∈ l, p.2.length = n) → ∃ w' s', Steps step l w s w' s'
  | [], w, s, _, _, _ => ⟨w, s, rfl, rfl⟩
  | (alpha, g) :: l, w, s, hw, hs, hl => by
    have hg : g.length = n := hl _ List.mem_cons_self
    obtain ⟨w₁, s₁, h1⟩ := h.runs alpha hw hs hg
    obtain ⟨a, b, -⟩ := h.cell hw hs hg h1
    obtain ⟨w', s', h2⟩ := steps_exists h l a b fun p hp => hl p (List.mem_cons_of_mem _ hp)
    exact ⟨w', s', w₁, s₁, h1, h2⟩

theorem steps_cell {step : Strategy} {f} (h : Cellwise step f) {n : Nat} : ∀ (l : List (F32.W × List F32.W)) {w s w' s' : List F32.W},
    w.length = n → s.length = n → (∀ p ∈ l, p.2.length = n) → Steps step l w s w' s' →
    w'.length = n ∧ s'.length = n ∧ ∀ i < n, (w'.getD i 0, s'.getD i 0) = run f (col l i) (w.getD i 0, s.getD i 0)
  | [], w, s, w', s', hw, hs, _, hst => by
    obtain ⟨rfl, rfl⟩ := hst
    exact ⟨hw, hs, fun i _ => rfl⟩
  | (alpha, g) :: l, w, s, w', s', hw, hs, hl, hst => by
    have hg : g.length = n := hl _ List.mem_cons_self
    obtain ⟨w₁, s₁, h1, h2⟩ := hst
    obtain ⟨a, b, c⟩ := h.cell hw hs hg h1
    obtain ⟨a', b', c'⟩ := steps_cell h l a b (fun p hp => hl p (List.mem_cons_of_mem _ hp)) h2
    refine ⟨a', b', fun i hi => ?_⟩
    rw [c' i hi, c i hi]; rfl

theorem zeros_get (n i : Nat) : (List.replicate n (0 : F32.W)).getD i 0 = 0 := by
  rw [List.getD_eq_getElem?_getD, List.getElem?_replicate]; split <;> rfl

/-! ### SGD -/

def vel1 (o : Mode) (alpha g v : F32.W) : F32.W :=
  match o with
  | .plain => mulIeee g alpha
  | .momentum mu => addIeee (mulIeee v mu) (mulIeee g alpha)
  | .nesterov mu _ => addIeee (mulIeee v mu) (mulIeee g alpha)

def go1 (o : Mode) (v v' : F32.W) : F32.W :=
  match o with
  | .plain => v'
  | .momentum _ => v'
  | .nesterov mu mu1 => addIeee (mulIeee v' mu1) (F32.flip (mulIeee v mu))

def sgd1 (o : Mode) (alpha g : F32.W) (c : F32.W × F32.W) : F32.W × F32.W :=
  (addIeee c.1 (F32.flip (go1 o c.2 (vel1 o alpha g c.2))), vel1 o alpha g c.2)

theorem velocity_cell {cpu : Cpu} {o : Mode} {alpha : F32.W} {g v v' d : List F32.W} {n : Nat} (hv : v.length = n)
    (h : Velocity cpu o alpha g v v' d) : v'.length = n ∧ d.length = n ∧
      ∀ i < n, v'.getD i 0 = vel1 o alpha (g.getD i 0) (v.getD i 0) ∧ d.getD i 0 = go1 o (v.getD i 0) (v'.getD i 0) := by
  obtain ⟨hl, h⟩ := h
  cases o with
  | plain =>
    obtain ⟨h, rfl⟩ := h
    rw [scale_iff] at h
    subst h
    exact ⟨by simp; omega, by simp; omega, fun i hi => ⟨by rw [mget _ (by omega)]; rfl, rfl⟩⟩
  | momentum mu =>
    obtain ⟨buf, a, h1, h2, h3, rfl⟩ := h
    rw [scale_iff] at h1
    rw [scaleIn_iff] at h2
    rw [addIn_iff] at h3
    obtain ⟨-, rfl⟩ := h3
    subst h1 h2
    exact ⟨by simp; omega, by simp; omega, fun i hi => ⟨by
      rw [zget _ (by simp; omega) (by simp; omega), mget _ (by omega), mget _ (by omega)]; rfl, rfl⟩⟩
  | nesterov mu mu1 =>
    obtain ⟨buf, prev, a, t, h1, h2, h3, h4, h5, h6⟩ := h
    rw [scale_iff] at h1 h2 h5
    rw [scaleIn_iff] at h3
    rw [addIn_iff] at h4
    rw [subIn_iff] at h6
    obtain ⟨-, h4⟩ := h4
    obtain ⟨-, h6⟩ := h6
    have lv : v'.length = n := by rw [h4, h3, h1]; simp; omega
    have lt : t.length = n := by rw [h5]; simp; omega
    have lp : prev.length = n := by rw [h2]; simp; omega
    refine ⟨lv, by rw [h6]; simp; omega, fun i hi => ⟨?_, ?_⟩⟩
    · rw [h4, h3, h1, zget _ (by simp; omega) (by simp; omega), mget _ (by omega), mget _ (by omega)]; rfl
    · rw [h6, zget _ (by omega) (by omega), h5, h2, mget _ (by omega), mget _ (by omega)]; rfl

theorem velocity_exists (cpu : Cpu) (o : Mode) (alpha : F32.W) {g v : List F32.W} (hl : v.length = g.length) :
    ∃ v' d, Velocity cpu o alpha g v v' d := by
  cases o with
  | plain => exact ⟨_, _, hl, (scale_iff _ _ _ _).mpr rfl, rfl⟩
  | momentum mu =>
    exact ⟨_, _, hl, _, _, (scale_iff _ _ _ _).mpr rfl, (scaleIn_iff _ _ _ _).mpr rfl, (addIn_iff _ _ _ _).mpr ⟨by simp [hl], rfl⟩, rfl⟩
  | nesterov mu mu1 =>
    exact ⟨_, _, hl, _, _, _, _, (scale_iff _ _ _ _).mpr rfl, (scale_iff _ _ _ _).mpr rfl, (scaleIn_iff _ _ _ _).mpr rfl,
      (addIn_iff _ _ _ _).mpr ⟨by simp [hl], rfl⟩, (scale_iff _ _ _ _).mpr rfl, (subIn_iff _ _ _ _).mpr ⟨by simp [hl], rfl⟩⟩

theorem sgd_cellwise (cpu : Cpu) (o : Mode) : Cellwise (Sgd cpu o) (sgd1 o) where
  runs alpha w g s hw hs hg := by
    obtain ⟨v', d, h⟩ := velocity_exists cpu o alpha (g := g) (v := s) (by omega)
    obtain ⟨-, ld, -⟩ := velocity_cell hs h
    exact ⟨_, v', d, h, (subIn_iff _ _ _ _).mpr ⟨by omega, rfl⟩⟩
  cell hw hs hg h := by
    obtain ⟨d, h, hsub⟩ := h
    obtain ⟨lv, ld, e⟩ := velocity_cell hs h
    rw [subIn_iff] at hsub
    obtain ⟨-, rfl⟩ := hsub
    refine ⟨by simp; omega, lv, fun i hi => ?_⟩
    rw [zget _ (by omega) (by omega), (e i hi).2, (e i hi).1]
    rfl

/-! ### AdaGrad and RMSProp -/

/-- Settings of Adam whose rule for the parameter is that of AdaGrad and RMSProp. -/
def adaSet (eps : F32.W) : Settings := ⟨0, 0, 0x3f000000, 0x3f000000, eps, none⟩

def rmsSet (decay rest eps : F32.W) : Settings := ⟨0, 0x3f800000, decay, rest, eps, none⟩

def ada1 (eps lr g : F32.W) (c : F32.W × F32.W) : F32.W × F32.W :=
  (w1 (adaSet eps) lr c.1 g (addIeee c.2 (mulIeee g g)), addIeee c.2 (mulIeee g g))

def rms1 (decay rest eps lr g : F32.W) (c : F32.W × F32.W) : F32.W × F32.W :=
  (w1 (rmsSet decay rest eps) lr c.1 g (m1 (rmsSet decay rest eps) g c.2), m1 (rmsSet decay rest eps) g c.2)

/-- The quotient and the subtraction. -/
theorem rule_cell {cpu : Cpu} {o : Settings} (ho : o.decay = none) {lr : F32.W} {w g m den q d w' : List F32.W} {n : Nat}
    (hw : w.length = n) (hg : g.length = n) (hm : m.length = n) (h1 : AddConstIn cpu o.eps (m.map sqrtIeee) den) (h2 : DivNew cpu g den q)
    (h3 : ScaleIn cpu lr q d) (h4 : SubIn cpu w d w') :
    w'.length = n ∧ ∀ i < n, w'.getD i 0 = w1 o lr (w.getD i 0) (g.getD i 0) (m.getD i 0) := by
  rw [addConstIn_iff] at h1
  rw [divNew_iff] at h2
  rw [scaleIn_iff] at h3
  rw [subIn_iff] at h4
  obtain ⟨-, h2⟩ := h2
  obtain ⟨-, h4⟩ := h4
  have ld : den.length = n := by rw [h1]; simp; omega
  have lq : q.length = n := by rw [h2]; simp; omega
  have l3 : d.length = n := by rw [h3]; simp; omega
  refine ⟨by rw [h4]; simp; omega, fun i hi => ?_⟩
  rw [h4, zget _ (by omega) (by omega), h3, mget _ (by omega), h2, zget _ (by omega) (by omega), h1, mget _ (by simp; omega),
    mget _ (by omega)]
  unfold w1 dir1
  rw [ho]

theorem rule_exists (cpu : Cpu) (eps lr : F32.W) {w g m : List F32.W} {n : Nat} (hw : w.length = n) (hg : g.length = n) (hm : m.length = n) :
    ∃ den q d w', AddConstIn cpu eps (m.map sqrtIeee) den ∧ DivNew cpu g den q ∧ ScaleIn cpu lr q d ∧ SubIn cpu w d w' :=
  ⟨_, _, _, _, (addConstIn_iff _ _ _ _).mpr rfl, (divNew_iff _ _ _ _).mpr ⟨by simp; omega, rfl⟩, (scaleIn_iff _ _ _ _).mpr rfl,
    (subIn_iff _ _ _ _).mpr ⟨by simp; omega, rfl⟩⟩

theorem ada_cellwise (cpu : Cpu) (eps : F32.W) : Cellwise (AdaGrad cpu eps) (ada1 eps) where
  runs lr w g s hw hs hg := by
    obtain ⟨den, q, d, w', h1, h2, h3, h4⟩ := rule_exists cpu eps lr (m := List.zipWith addIeee s (List.zipWith mulIeee g g)) hw hg
      (by simp; omega)
    exact ⟨w', _, _, den, q, d, ⟨rfl, rfl⟩, (addIn_iff _ _ _ _).mpr ⟨by simp; omega, rfl⟩, h1, h2, h3, h4⟩
  cell {n alpha w g s w' s'} hw hs hg h := by
    obtain ⟨sq, den, q, d, ⟨-, rfl⟩, hm, h1, h2, h3, h4⟩ := h
    rw [addIn_iff] at hm
    obtain ⟨-, rfl⟩ := hm
    have lm : (List.zipWith addIeee s (List.zipWith mulIeee g g)).length = n := by simp; omega
    obtain ⟨lw, e⟩ := rule_cell (o := adaSet eps) rfl hw hg lm h1 h2 h3 h4
    refine ⟨lw, lm, fun i hi => ?_⟩
    rw [e i hi, zget _ (by omega) (by simp; omega), zget _ (by omega) rfl]
    rfl

theorem rms_cellwise (cpu : Cpu) (decay rest eps : F32.W) : Cellwise (RMSProp cpu decay rest eps) (rms1 decay rest eps) where
  runs lr w g s hw hs hg := by
    obtain ⟨den, q, d, w', h1, h2, h3, h4⟩ := rule_exists cpu eps lr
      (m := List.zipWith addIeee (s.map fun v => mulIeee v decay) ((List.zipWith mulIeee g g).map fun v => mulIeee v rest)) hw hg
      (by simp; omega)
    exact ⟨w', _, _, _, _, den, q, d, (scaleIn_iff _ _ _ _).mpr rfl, ⟨rfl, rfl⟩, (scaleIn_iff _ _ _ _).mpr rfl,
      (addIn_iff _ _ _ _).mpr ⟨by simp; omega, rfl⟩, h1, h2, h3, h4⟩
  cell {n alpha w g s w' s'} hw hs hg h := by
    obtain ⟨a, sq, b, den, q, d, ha, ⟨-, hsq⟩, hb, hm, h1, h2, h3, h4⟩ := h
    rw [scaleIn_iff] at ha hb
    rw [addIn_iff] at hm
    obtain ⟨-, hm⟩ := hm
    subst ha hsq hb
    have lm : s'.length = n := by rw [hm]; simp; omega
    obtain ⟨lw, e⟩ := rule_cell (o := rmsSet decay rest eps) rfl hw hg lm h1 h2 h3 h4
    refine ⟨lw, lm, fun i hi => ?_⟩
    have em : s'.getD i 0 = m1 (rmsSet decay rest eps) (g.getD i 0) (s.getD i 0) := by
      rw [hm, zget _ (by simp; omega) (by simp; omega), mget _ (by omega), mget _ (by simp; omega), zget _ (by omega) rfl]; rfl
    rw [e i hi, em]
    rfl

end Verif.Opt32
