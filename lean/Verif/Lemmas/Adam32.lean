import Verif.Lemmas.F32Sqrt
import Verif.Lemmas.Att32
import Mathlib.Data.List.GetD

set_option autoImplicit false
set_option linter.unusedSimpArgs false

/-!
# The operations of Adam on words, element by element
-/

namespace Verif.Adam32
open Verif.F32 Verif.Asm Verif.Spec Verif.Spec.Kernels Verif.Net32 Verif.Rec32 Verif.Att32

theorem scaleIn_iff (cpu : Cpu) (c : F32.W) (x z : List F32.W) : ScaleIn cpu c x z ↔ z = x.map fun v => mulIeee v c := by
  have main : ∀ (p : Nat) (s : St F32.W), elems 4 s.mem p x.length = x →
      ∃ t, (∀ t', Call (frameC 4 (F32.alu divIeee) c ⟨p, x.length⟩ ⟨p, x.length⟩) (mulConstFn cpu .f32) s t' ↔ t' = t) ∧
        elems 4 t.mem p x.length = x.map fun v => mulIeee v c := by
    intro p s hp
    obtain ⟨s₁, c1, e1, -⟩ := mulConst_kernel cpu .f32 (F32.alu divIeee) (c := c) (x := ⟨p, x.length⟩)
      (y := ⟨p, x.length⟩) (fun a => F32.mul_comm' a c) le_rfl (.inl rfl) s
    refine ⟨s₁, c1, ?_⟩
    have e1' : elems 4 s₁.mem p x.length = (elems 4 s.mem p x.length).map fun v => mulIeee v c := e1
    rw [e1', hp]
  constructor
  · rintro ⟨p, s, t, hp, h1, h3⟩
    obtain ⟨t', g1, g3⟩ := main p s hp
    obtain rfl := (g1 t).mp h1
    rw [← h3, g3]
  · rintro rfl
    obtain ⟨t, g1, g3⟩ := main 0 (stateOf x []) (memOf_fst x [])
    exact ⟨0, stateOf x [], t, memOf_fst x [], (g1 _).mpr rfl, g3⟩

theorem addConstIn_iff (cpu : Cpu) (c : F32.W) (x z : List F32.W) : AddConstIn cpu c x z ↔ z = x.map fun v => addIeee v c := by
  have main : ∀ (p : Nat) (s : St F32.W), elems 4 s.mem p x.length = x →
      ∃ t, (∀ t', Call (frameC 4 (F32.alu divIeee) c ⟨p, x.length⟩ ⟨p, x.length⟩) (addConstFn cpu .f32) s t' ↔ t' = t) ∧
        elems 4 t.mem p x.length = x.map fun v => addIeee v c := by
    intro p s hp
    obtain ⟨s₁, c1, e1, -⟩ := addConst_kernel cpu .f32 (F32.alu divIeee) (c := c) (x := ⟨p, x.length⟩)
      (y := ⟨p, x.length⟩) (fun a => F32.add_comm' a c) le_rfl (.inl rfl) s
    refine ⟨s₁, c1, ?_⟩
    have e1' : elems 4 s₁.mem p x.length = (elems 4 s.mem p x.length).map fun v => addIeee v c := e1
    rw [e1', hp]
  constructor
  · rintro ⟨p, s, t, hp, h1, h3⟩
    obtain ⟨t', g1, g3⟩ := main p s hp
    obtain rfl := (g1 t).mp h1
    rw [← h3, g3]
  · rintro rfl
    obtain ⟨t, g1, g3⟩ := main 0 (stateOf x []) (memOf_fst x [])
    exact ⟨0, stateOf x [], t, memOf_fst x [], (g1 _).mpr rfl, g3⟩

theorem subIn_iff (cpu : Cpu) (y b z : List F32.W) :
    SubIn cpu y b z ↔ y.length = b.length ∧ z = List.zipWith (fun u v => addIeee u (F32.flip v)) y b := by
  have main : ∀ (p q : Nat) (s : St F32.W), q % 4 = 0 → Apart 4 y.length q p → elems 4 s.mem p y.length = y →
      elems 4 s.mem q y.length = b → ∃ s', (∀ t, Call (frame3 4 (F32.alu divIeee) ⟨p, y.length⟩ ⟨q, y.length⟩ ⟨p, y.length⟩)
        (subFn cpu .f32) s t ↔ t = s') ∧ elems 4 s'.mem p y.length = List.zipWith (fun u v => addIeee u (F32.flip v)) y b := by
    intro p q s hq h1 h3 h4
    obtain ⟨s', g1, g2, -⟩ := sub_kernel cpu .f32 (F32.alu divIeee) (x1 := ⟨p, y.length⟩) (x2 := ⟨q, y.length⟩)
      (y := ⟨p, y.length⟩) le_rfl le_rfl hq (.inl rfl) (.inr h1) s
    refine ⟨s', g1, ?_⟩
    have := g2
    simp only [Sz.bytes, h3, h4] at this
    exact this
  constructor
  · rintro ⟨hl, p, q, s, t, hq, h1, h3, h4, h5, h6⟩
    obtain ⟨s', g1, g2⟩ := main p q s hq h1 h3 h4
    obtain rfl := (g1 t).mp h5
    exact ⟨hl, by rw [← h6, g2]⟩
  · rintro ⟨hl, rfl⟩
    have h2 : elems 4 (stateOf y b).mem (4 * y.length) y.length = b := by
      rw [show elems 4 (stateOf y b).mem (4 * y.length) y.length = elems 4 (memOf y b) (4 * y.length) b.length by rw [hl]; rfl]
      exact memOf_snd y b
    have hb : Apart 4 y.length (4 * y.length) 0 := by unfold Apart; omega
    obtain ⟨s', g1, g2⟩ := main 0 (4 * y.length) (stateOf y b) (by omega) hb (memOf_fst y b) h2
    exact ⟨hl, 0, 4 * y.length, stateOf y b, s', by omega, hb, memOf_fst y b, h2, (g1 s').mpr rfl, g2⟩

theorem divNew_iff (cpu : Cpu) (a b z : List F32.W) :
    DivNew cpu a b z ↔ a.length = b.length ∧ z = List.zipWith divIeee a b := by
  have main : ∀ (p q r : Nat) (s : St F32.W), q % 4 = 0 → Apart 4 a.length p r → Apart 4 a.length q r →
      elems 4 s.mem p a.length = a → elems 4 s.mem q a.length = b →
      ∃ s', (∀ t, Call (frame3 4 (F32.alu divIeee) ⟨p, a.length⟩ ⟨q, a.length⟩ ⟨r, a.length⟩)
        (divFn cpu .f32) s t ↔ t = s') ∧ elems 4 s'.mem r a.length = List.zipWith divIeee a b := by
    intro p q r s hq h1 h2 h3 h4
    obtain ⟨s', g1, g2, -⟩ := div_kernel cpu .f32 (F32.alu divIeee) (x1 := ⟨p, a.length⟩) (x2 := ⟨q, a.length⟩)
      (y := ⟨r, a.length⟩) le_rfl le_rfl hq (.inr h1) (.inr h2) s
    refine ⟨s', g1, ?_⟩
    have := g2
    simp only [Sz.bytes, h3, h4] at this
    exact this
  constructor
  · rintro ⟨hl, p, q, r, s, t, hq, h1, h2, h3, h4, h5, h6⟩
    obtain ⟨s', g1, g2⟩ := main p q r s hq h1 h2 h3 h4
    obtain rfl := (g1 t).mp h5
    exact ⟨hl, by rw [← h6, g2]⟩
  · rintro ⟨hl, rfl⟩
    have h2 : elems 4 (stateOf a b).mem (4 * a.length) a.length = b := by
      rw [show elems 4 (stateOf a b).mem (4 * a.length) a.length = elems 4 (memOf a b) (4 * a.length) b.length by rw [hl]; rfl]
      exact memOf_snd a b
    have ha : Apart 4 a.length 0 (8 * a.length) := by unfold Apart; omega
    have hb : Apart 4 a.length (4 * a.length) (8 * a.length) := by unfold Apart; omega
    obtain ⟨s', g1, g2⟩ := main 0 (4 * a.length) (8 * a.length) (stateOf a b) (by omega) ha hb (memOf_fst a b) h2
    exact ⟨hl, 0, 4 * a.length, 8 * a.length, stateOf a b, s', by omega, ha, hb, memOf_fst a b, h2, (g1 s').mpr rfl, g2⟩

/-! ### One element -/

def v1 (o : Settings) (g v : F32.W) : F32.W := addIeee (mulIeee v o.b1) (mulIeee g o.b1c)

def m1 (o : Settings) (g m : F32.W) : F32.W := addIeee (mulIeee m o.b2) (mulIeee (mulIeee g g) o.b2c)

def dir1 (o : Settings) (w v m : F32.W) : F32.W :=
  match o.decay with
  | none => divIeee v (addIeee (sqrtIeee m) o.eps)
  | some l => addIeee (divIeee v (addIeee (sqrtIeee m) o.eps)) (mulIeee w l)

def w1 (o : Settings) (alpha w v m : F32.W) : F32.W := addIeee w (F32.flip (mulIeee (dir1 o w v m) alpha))

/-- Parameter and moments of one element. -/
structure Cell where
  w : F32.W
  v : F32.W
  m : F32.W

def step1 (o : Settings) (alpha g : F32.W) (c : Cell) : Cell :=
  ⟨w1 o alpha c.w (v1 o g c.v) (m1 o g c.m), v1 o g c.v, m1 o g c.m⟩

def run1 (o : Settings) : List (F32.W × F32.W) → Cell → Cell
  | [], c => c
  | (alpha, g) :: l, c => run1 o l (step1 o alpha g c)

/-- Element `i`. -/
def cell (w : List F32.W) (s : State) (i : Nat) : Cell := ⟨w.getD i 0, s.v.getD i 0, s.m.getD i 0⟩

theorem zget (f : F32.W → F32.W → F32.W) {a b : List F32.W} {i : Nat} (ha : i < a.length) (hl : a.length = b.length) :
    (List.zipWith f a b).getD i 0 = f (a.getD i 0) (b.getD i 0) := by
  rw [List.getD_eq_getElem _ _ (by simp; omega), List.getD_eq_getElem _ _ ha, List.getD_eq_getElem _ _ (by omega)]
  simp

theorem mget (f : F32.W → F32.W) {a : List F32.W} {i : Nat} (ha : i < a.length) : (a.map f).getD i 0 = f (a.getD i 0) := by
  rw [List.getD_eq_getElem _ _ (by simpa using ha), List.getD_eq_getElem _ _ ha]
  simp

/-- Moments and parameter have the same length. -/
def Fit (n : Nat) (w : List F32.W) (s : State) : Prop := w.length = n ∧ s.v.length = n ∧ s.m.length = n

theorem step_cell {cpu : Cpu} {o : Settings} {alpha : F32.W} {w g w' : List F32.W} {s s' : State} {n : Nat} (hf : Fit n w s)
    (h : Step cpu o alpha w g s w' s') :
    g.length = n ∧ Fit n w' s' ∧ ∀ i < n, cell w' s' i = step1 o alpha (g.getD i 0) (cell w s i) := by
  obtain ⟨hw, hv, hm⟩ := hf
  obtain ⟨⟨a, b, ha, hgl, hb, hv'⟩, ⟨a2, sq, b2, ha2, ⟨-, hsq⟩, hl2, hb2, hm'⟩, z, d, ⟨den, q, hden, hq, hz⟩, hd, hw'⟩ := h
  rw [scaleIn_iff] at ha ha2
  rw [scale_iff] at hb hb2 hd
  rw [addIn_iff] at hv' hm'
  rw [addConstIn_iff] at hden
  rw [divNew_iff] at hq
  rw [subIn_iff] at hw'
  obtain ⟨-, hv'⟩ := hv'
  obtain ⟨-, hm'⟩ := hm'
  obtain ⟨hql, hq⟩ := hq
  obtain ⟨hwl, hw'⟩ := hw'
  have hg : g.length = n := by omega
  have lv : s'.v.length = n := by rw [hv', ha, hb]; simp; omega
  have lm : s'.m.length = n := by rw [hm', ha2, hb2, hsq]; simp; omega
  have lden : den.length = n := by rw [hden]; simp; omega
  have lq : q.length = n := by rw [hq]; simp; omega
  have lw' : w'.length = n := by rw [hw']; simp; omega
  have ev : ∀ i < n, s'.v.getD i 0 = v1 o (g.getD i 0) (s.v.getD i 0) := by
    intro i hi
    rw [hv', ha, hb, zget _ (by simp; omega) (by simp; omega), mget _ (by omega), mget _ (by omega)]; rfl
  have em : ∀ i < n, s'.m.getD i 0 = m1 o (g.getD i 0) (s.m.getD i 0) := by
    intro i hi
    rw [hm', ha2, hb2, hsq, zget _ (by simp; omega) (by simp; omega), mget _ (by omega), mget _ (by simp; omega),
      zget _ (by omega) rfl]; rfl
  have eq : ∀ i < n, q.getD i 0 = divIeee (s'.v.getD i 0) (addIeee (sqrtIeee (s'.m.getD i 0)) o.eps) := by
    intro i hi
    rw [hq, zget _ (by omega) (by omega), hden, mget _ (by simp; omega), mget _ (by omega)]
  have ez : z.length = n ∧ ∀ i < n, z.getD i 0 = dir1 o (w.getD i 0) (s'.v.getD i 0) (s'.m.getD i 0) := by
    unfold dir1
    cases hdec : o.decay with
    | none =>
      rw [hdec] at hz
      simp only at hz
      rw [hz]
      exact ⟨lq, fun i hi => eq i hi⟩
    | some l =>
      rw [hdec] at hz
      simp only at hz
      obtain ⟨y, hy, hz⟩ := hz
      rw [scale_iff] at hy
      rw [addIn_iff] at hz
      obtain ⟨hzl, hz⟩ := hz
      refine ⟨by rw [hz]; simp; omega, fun i hi => ?_⟩
      rw [hz, zget _ (by omega) hzl, eq i hi, hy, mget _ (by omega)]
  refine ⟨hg, ⟨lw', lv, lm⟩, fun i hi => ?_⟩
  have ew : w'.getD i 0 = w1 o alpha (w.getD i 0) (s'.v.getD i 0) (s'.m.getD i 0) := by
    rw [hw', zget _ (by omega) (by omega), hd, mget _ (by omega), ez.2 i hi]; rfl
  unfold cell step1
  rw [ew, ev i hi, em i hi]

theorem step_exists (cpu : Cpu) (o : Settings) (alpha : F32.W) {w g : List F32.W} {s : State} {n : Nat} (hf : Fit n w s)
    (hg : g.length = n) : ∃ w' s', Step cpu o alpha w g s w' s' := by
  obtain ⟨hw, hv, hm⟩ := hf
  let a := s.v.map fun v => mulIeee v o.b1
  let b := g.map fun v => mulIeee v o.b1c
  let a2 := s.m.map fun v => mulIeee v o.b2
  let sq := List.zipWith mulIeee g g
  let b2 := sq.map fun v => mulIeee v o.b2c
  let v' := List.zipWith addIeee a b
  let m' := List.zipWith addIeee a2 b2
  let den := (m'.map sqrtIeee).map fun v => addIeee v o.eps
  let q := List.zipWith divIeee v' den
  have lv : v'.length = n := by simp [v', a, b]; omega
  have lm : m'.length = n := by simp [m', a2, b2, sq]; omega
  have lq : q.length = n := by simp [q, den]; omega
  obtain ⟨z, lz, hz⟩ : ∃ z : List F32.W, z.length = n ∧ (match o.decay with
      | none => z = q
      | some l => ∃ y, Scale cpu l w y ∧ AddIn cpu q y z) := by
    cases o.decay with
    | none => exact ⟨q, lq, rfl⟩
    | some l =>
      refine ⟨List.zipWith addIeee q (w.map fun v => mulIeee v l), by simp; omega, w.map fun v => mulIeee v l, (scale_iff _ _ _ _).mpr rfl,
        (addIn_iff _ _ _ _).mpr ⟨by simp; omega, rfl⟩⟩
  refine ⟨List.zipWith (fun u v => addIeee u (F32.flip v)) w (z.map fun v => mulIeee v alpha), ⟨v', m'⟩, ?_, ?_, ?_⟩
  · exact ⟨a, b, (scaleIn_iff _ _ _ _).mpr rfl, by omega, (scale_iff _ _ _ _).mpr rfl,
      (addIn_iff _ _ _ _).mpr ⟨by simp [a, b]; omega, rfl⟩⟩
  · exact ⟨a2, sq, b2, (scaleIn_iff _ _ _ _).mpr rfl, ⟨rfl, rfl⟩, by simp [sq]; omega, (scale_iff _ _ _ _).mpr rfl,
      (addIn_iff _ _ _ _).mpr ⟨by simp [a2, b2, sq]; omega, rfl⟩⟩
  · exact ⟨z, z.map fun v => mulIeee v alpha, ⟨den, q, (addConstIn_iff _ _ _ _).mpr rfl, (divNew_iff _ _ _ _).mpr ⟨by simp [den]; omega, rfl⟩, hz⟩,
      (scale_iff _ _ _ _).mpr rfl, (subIn_iff _ _ _ _).mpr ⟨by simp; omega, rfl⟩⟩

/-- The steps of element `i`. -/
def col (l : List (F32.W × List F32.W)) (i : Nat) : List (F32.W × F32.W) := l.map fun p => (p.1, p.2.getD i 0)

theorem steps_cell {cpu : Cpu} {o : Settings} {n : Nat} : ∀ (l : List (F32.W × List F32.W)) {w w' : List F32.W} {s s' : State},
    Fit n w s → Steps cpu o l w s w' s' →
    (∀ p ∈ l, p.2.length = n) ∧ Fit n w' s' ∧ ∀ i < n, cell w' s' i = run1 o (col l i) (cell w s i)
  | [], w, w', s, s', hf, h => by
    obtain ⟨rfl, rfl⟩ := h
    exact ⟨fun p hp => absurd hp List.not_mem_nil, hf, fun i _ => rfl⟩
  | (alpha, g) :: l, w, w', s, s', hf, h => by
    obtain ⟨w₁, s₁, h1, h2⟩ := h
    obtain ⟨a1, a2, a3⟩ := step_cell hf h1
    obtain ⟨b1, b2, b3⟩ := steps_cell l a2 h2
    refine ⟨fun p hp => ?_, b2, fun i hi => ?_⟩
    · rcases List.mem_cons.mp hp with rfl | hp
      · exact a1
      · exact b1 p hp
    · rw [b3 i hi, a3 i hi]; rfl

theorem steps_exists (cpu : Cpu) (o : Settings) {n : Nat} : ∀ (l : List (F32.W × List F32.W)) {w : List F32.W} {s : State},
    Fit n w s → (∀ p ∈ l, p.2.length = n) → ∃ w' s', Steps cpu o l w s w' s'
  | [], w, s, _, _ => ⟨w, s, rfl, rfl⟩
  | (alpha, g) :: l, w, s, hf, h => by
    obtain ⟨w₁, s₁, h1⟩ := step_exists cpu o alpha hf (h _ List.mem_cons_self)
    obtain ⟨w', s', h2⟩ := steps_exists cpu o l (step_cell hf h1).2.1 fun p hp => h p (List.mem_cons_of_mem _ hp)
    exact ⟨w', s', w₁, s₁, h1, h2⟩

theorem newState_fit (w : List F32.W) : Fit w.length w (newState w.length) := ⟨rfl, by simp [newState], by simp [newState]⟩

theorem newState_cell (w : List F32.W) (i : Nat) : cell w (newState w.length) i = ⟨w.getD i 0, 0, 0⟩ := by
  have : (List.replicate w.length (0 : F32.W)).getD i 0 = 0 := by
    rw [List.getD_eq_getElem?_getD, List.getElem?_replicate]; split <;> rfl
  unfold cell newState
  rw [this]

end Verif.Adam32
