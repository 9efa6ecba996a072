/- Runs of the machine of the gonum kernels: straight-line segments, loops, phases of a body. -/
import Verif.Lemmas.AsmBin
import Verif.Model.Gonum
set_option autoImplicit false
set_option linter.unusedSimpArgs false

namespace Verif.Gonum

open Verif.Asm (Arith Alu W keep lanesOf Done SameOrApart index_split gap32 and15)

variable {R : Type}

theorem Run.det {E : Env R} {code l : List Line} {s a b : St R} (h : Run E code l s a)
    (h' : Run E code l s b) : a = b := by
  induction h with
  | label _ ih => cases h' with | label h' => exact ih h'
  | ins he _ ih =>
    cases h' with
    | ins he' h' => rw [he] at he'; cases he'; exact ih h'
  | jmp _ ih => cases h' with | jmp h' => exact ih h'
  | jzT hc _ ih =>
    cases h' with
    | jzT _ h' => exact ih h'
    | jzF hc' _ => rw [hc] at hc'; cases hc'
  | jzF hc _ ih =>
    cases h' with
    | jzT hc' _ => rw [hc] at hc'; cases hc'
    | jzF _ h' => exact ih h'
  | jnzT hc _ ih =>
    cases h' with
    | jnzT _ h' => exact ih h'
    | jnzF hc' _ => rw [hc] at hc'; cases hc'
  | jnzF hc _ ih =>
    cases h' with
    | jnzT hc' _ => rw [hc] at hc'; cases hc'
    | jnzF _ h' => exact ih h'
  | loopT hc _ ih =>
    cases h' with
    | loopT _ h' => exact ih h'
    | loopF hc' _ => omega
  | loopF hc _ ih =>
    cases h' with
    | loopT hc' _ => omega
    | loopF _ h' => exact ih h'
  | ret => cases h'; rfl

/-- Straight-line code. -/
def seg (xs : List Ins) : List Line := xs.map .i

def execs (E : Env R) : List Ins → St R → Option (St R)
  | [], s => some s
  | x :: xs, s => (exec E x s).bind (execs E xs)

theorem execs_append {E : Env R} {xs ys : List Ins} {s s1 : St R}
    (h : execs E xs s = some s1) : execs E (xs ++ ys) s = execs E ys s1 := by
  induction xs generalizing s with
  | nil => simp [execs] at h; simp [h]
  | cons x xs ih =>
    simp only [execs, List.cons_append] at h ⊢
    cases he : exec E x s with
    | none => simp [he] at h
    | some s2 => simp [he] at h ⊢; exact ih h

theorem after_seg (l : Lbl) (xs : List Ins) (rest : List Line) :
    after l (seg xs ++ rest) = after l rest := by
  induction xs with
  | nil => rfl
  | cons x xs ih => exact ih

/-- The run from the lines `l` ends, and then `P` holds. -/
def Ends (E : Env R) (code l : List Line) (s : St R) (P : St R → Prop) : Prop :=
  ∃ s', Run E code l s s' ∧ P s'

section ends
variable {E : Env R} {code rest : List Line} {s : St R} {P : St R → Prop}

theorem Ends.label {l : Lbl} (h : Ends E code rest s P) : Ends E code (.label l :: rest) s P :=
  h.imp fun _ h => ⟨.label h.1, h.2⟩

theorem Ends.ins {x : Ins} {s1 : St R} (he : exec E x s = some s1) (h : Ends E code rest s1 P) :
    Ends E code (.i x :: rest) s P :=
  h.imp fun _ h => ⟨.ins he h.1, h.2⟩

theorem Ends.seg {xs : List Ins} {s1 : St R} (he : execs E xs s = some s1)
    (h : Ends E code rest s1 P) : Ends E code (Gonum.seg xs ++ rest) s P := by
  induction xs generalizing s with
  | nil => simp [execs] at he; subst he; exact h
  | cons x xs ih =>
    simp only [execs] at he
    cases hx : exec E x s with
    | none => simp [hx] at he
    | some s2 => simp [hx] at he; exact .ins hx (ih he)

theorem Ends.jmp {l : Lbl} (h : Ends E code (after l code) s P) :
    Ends E code (.jmp l :: rest) s P :=
  h.imp fun _ h => ⟨.jmp h.1, h.2⟩

/-- Both ways of a `JZ`. -/
theorem Ends.jz {l : Lbl} (ht : s.zf = true → Ends E code (after l code) s P)
    (hf : s.zf = false → Ends E code rest s P) : Ends E code (.jz l :: rest) s P := by
  cases hz : s.zf
  · exact (hf hz).imp fun _ h => ⟨.jzF hz h.1, h.2⟩
  · exact (ht hz).imp fun _ h => ⟨.jzT hz h.1, h.2⟩

theorem Ends.jnz {l : Lbl} (ht : s.zf = false → Ends E code (after l code) s P)
    (hf : s.zf = true → Ends E code rest s P) : Ends E code (.jnz l :: rest) s P := by
  cases hz : s.zf
  · exact (ht hz).imp fun _ h => ⟨.jnzT hz h.1, h.2⟩
  · exact (hf hz).imp fun _ h => ⟨.jnzF hz h.1, h.2⟩

theorem Ends.ret (h : P s) : Ends E code (.ret :: rest) s P := ⟨s, .ret, h⟩

/-- `L: body; LOOP L`. -/
theorem Ends.loop {Inv : Nat → St R → Prop} {L : Lbl} {body : List Ins}
    (hL : after L code = Gonum.seg body ++ .loop L :: rest)
    (hcx : ∀ k s a, Inv k s → Inv k (s.setR .CX a))
    (hbody : ∀ k s, Inv (k + 1) s → ∃ s', execs E body s = some s' ∧ s'.r .CX = s.r .CX ∧ Inv k s')
    (hdone : ∀ s, Inv 0 s → Ends E code rest s P) :
    ∀ k s, Inv (k + 1) s → s.r .CX = k + 1 → Ends E code (after L code) s P := by
  intro k
  induction k with
  | zero =>
    intro s h hc
    obtain ⟨t, h1, h2, h3⟩ := hbody 0 s h
    obtain ⟨s', hs', hp⟩ := hdone _ (hcx _ _ 0 h3)
    rw [hL]
    exact .seg h1 ⟨s', .loopF (by omega) hs', hp⟩
  | succ k ih =>
    intro s h hc
    obtain ⟨t, h1, h2, h3⟩ := hbody _ s h
    obtain ⟨s', hs', hp⟩ := ih _ (hcx _ _ (t.r .CX - 1) h3) (by simp [St.setR, h2, hc])
    rw [hL]
    exact .seg h1 ⟨s', .loopT (by omega) hs', hp⟩

/-- `L: body; DECQ c; JNZ L`. -/
theorem Ends.dec {Inv : Nat → St R → Prop} {L : Lbl} {body : List Ins} {c : Reg}
    (hL : after L code = Gonum.seg body ++ .i (.decQ c) :: .jnz L :: rest)
    (hcx : ∀ k s a z l, Inv k s → Inv k { s.setR c a with zf := z, lt := l })
    (hbody : ∀ k s, Inv (k + 1) s → ∃ s', execs E body s = some s' ∧ s'.r c = s.r c ∧ Inv k s')
    (hdone : ∀ s, Inv 0 s → Ends E code rest s P) :
    ∀ k s, Inv (k + 1) s → s.r c = k + 1 → Ends E code (after L code) s P := by
  intro k
  induction k with
  | zero =>
    intro s h hc
    obtain ⟨t, h1, h2, h3⟩ := hbody 0 s h
    have h4 := hcx _ _ (t.r c - 1) (t.r c - 1 == 0) false h3
    rw [hL]
    refine .seg h1 (.ins (if_pos (by omega)) (.jnz ?_ fun _ => hdone _ h4))
    intro hz
    simp [h2, hc] at hz
  | succ k ih =>
    intro s h hc
    obtain ⟨t, h1, h2, h3⟩ := hbody _ s h
    have h4 := hcx _ _ (t.r c - 1) (t.r c - 1 == 0) false h3
    rw [hL]
    refine .seg h1 (.ins (if_pos (by omega)) (.jnz (fun _ => ih _ h4 (by simp [St.setR, h2, hc])) ?_))
    intro hz
    simp [h2, hc] at hz

end ends

/-- Repeating an instruction with a running index. -/
theorem execs_range {E : Env R} (g : Nat → Ins) (P : Nat → St R → Prop) (u : Nat) {s : St R}
    (h0 : P 0 s)
    (step : ∀ k, k < u → ∀ t, P k t → ∃ t', exec E (g k) t = some t' ∧ P (k + 1) t') :
    ∃ t, execs E ((List.range u).map g) s = some t ∧ P u t := by
  induction u with
  | zero => exact ⟨s, rfl, h0⟩
  | succ u ih =>
    obtain ⟨t, ht, hp⟩ := ih fun k hk => step k (by omega)
    obtain ⟨t', ht', hp'⟩ := step u (by omega) t hp
    refine ⟨t', ?_, hp'⟩
    rw [List.range_succ, List.map_append, execs_append ht]
    simp [execs, ht']

theorem addr_congr {s t : St R} (h : t.r = s.r) (a : Addr) : t.addr a = s.addr a := by
  simp [St.addr, h]

/-! ### Phases -/

section phases
variable {E : Env R} {w : W}

theorem ok_of {perm : Nat → Bool} {p n : Nat}
    (h : ∀ l, l < n → perm (p + E.es * l) = true) : E.ok perm p n = true := by
  simpa [Env.ok] using h

theorem write_in {m : Nat → R} {p n : Nat} {f : Nat → R} (hes : 0 < E.es) {l : Nat} (hl : l < n) :
    E.write m p n f (p + E.es * l) = f l := by
  have h1 : (E.es * l) % E.es = 0 := Nat.mul_mod_right _ _
  have h2 : E.es * l / E.es = l := Nat.mul_div_cancel_left _ hes
  simp [Env.write, h1, h2, hl]

theorem write_out {m : Nat → R} {p n : Nat} {f : Nat → R} {a : Nat}
    (h : ∀ l, l < n → a ≠ p + E.es * l) : E.write m p n f a = m a := by
  unfold Env.write
  rw [if_neg]
  rintro ⟨h1, h2, h3⟩
  refine h _ h3 ?_
  have := Nat.div_add_mod (a - p) E.es
  omega

/-- Chunk `k` of the array at `base` (with index). -/
def chunk (es : Nat) (w : W) (base : Reg) (ix : Option (Reg × Nat)) (k : Nat) : Addr :=
  ⟨base, ix, es * lanesOf es w * k⟩

/-- `u` loads of consecutive chunks of an array into registers `d`, `d + 1`, …. -/
theorem loads {base : Reg} {ix : Option (Reg × Nat)} {d u p : Nat} {s : St R}
    (hx : E.lanes w ≤ 16 / E.es) (hb : s.addr ⟨base, ix, 0⟩ = p)
    (hrd : ∀ j, j < u * E.lanes w → E.rd (p + E.es * j) = true) :
    ∃ t, execs E ((List.range u).map fun k => Ins.ld w (chunk E.es w base ix k) (k + d)) s = some t ∧
      t.r = s.r ∧ t.mem = s.mem ∧ t.frame = s.frame ∧
      (∀ k, k < u → ∀ l, l < E.lanes w → t.v (k + d) l = s.mem (p + E.es * (k * E.lanes w + l))) ∧
      ∀ q, (q < d ∨ u + d ≤ q) → t.v q = s.v q := by
  obtain ⟨t, ht, h1, h2, h3, h4, h5⟩ := execs_range (E := E) (s := s)
    (fun k => Ins.ld w (chunk E.es w base ix k) (k + d))
    (fun k t => t.r = s.r ∧ t.mem = s.mem ∧ t.frame = s.frame ∧
      (∀ q, q < k → ∀ l, l < E.lanes w → t.v (q + d) l = s.mem (p + E.es * (q * E.lanes w + l))) ∧
      ∀ q, (q < d ∨ k + d ≤ q) → t.v q = s.v q) u
    ⟨rfl, rfl, rfl, fun q hq => by omega, fun _ _ => rfl⟩
    (by
      rintro k hk t ⟨h1, h2, h3, h4, h5⟩
      have ha : t.addr (chunk E.es w base ix k) = p + E.es * (k * E.lanes w) := by
        rw [addr_congr h1, ← hb]
        simp only [St.addr, chunk, Env.lanes, Nat.add_zero]; ring
      have hok : E.ok E.rd (t.addr (chunk E.es w base ix k)) (E.lanes w) = true := by
        refine ok_of fun l hl => ?_
        rw [ha, Nat.add_assoc, ← Nat.mul_add]
        refine hrd _ ?_
        calc k * E.lanes w + l < k * E.lanes w + E.lanes w := by omega
          _ = (k + 1) * E.lanes w := by ring
          _ ≤ _ := Nat.mul_le_mul_right _ hk
      refine ⟨_, if_pos hok, h1, h2, h3, ?_, ?_⟩
      · intro q hq l hl
        by_cases hqk : q = k
        · subst hqk
          have e : p + E.es * (q * E.lanes w) + E.es * l = p + E.es * (q * E.lanes w + l) := by ring
          have : l < 16 / E.es := by omega
          simp only [St.setV, keep, if_true, this, hl, ha, h2, e]
        · have : ¬ q + d = k + d := by omega
          simp only [St.setV, this, if_false]
          exact h4 q (by omega) l hl
      · intro q hq
        have : ¬ q = k + d := by omega
        simp only [St.setV, this, if_false]
        exact h5 q (by omega))
  exact ⟨t, ht, h1, h2, h3, h4, h5⟩

/-- `u` stores of registers `d`, `d + 1`, … to consecutive chunks of an array. -/
theorem stores {base : Reg} {ix : Option (Reg × Nat)} {d u p : Nat} {s : St R} (hes : 0 < E.es)
    (hb : s.addr ⟨base, ix, 0⟩ = p)
    (hwr : ∀ j, j < u * E.lanes w → E.wr (p + E.es * j) = true) :
    ∃ t, execs E ((List.range u).map fun k => Ins.st w (k + d) (chunk E.es w base ix k)) s = some t ∧
      t.r = s.r ∧ t.v = s.v ∧ t.frame = s.frame ∧
      (∀ k, k < u → ∀ l, l < E.lanes w → t.mem (p + E.es * (k * E.lanes w + l)) = s.v (k + d) l) ∧
      ∀ a, (∀ j, j < u * E.lanes w → a ≠ p + E.es * j) → t.mem a = s.mem a := by
  obtain ⟨t, ht, h1, h2, h3, h4, h5⟩ := execs_range (E := E) (s := s)
    (fun k => Ins.st w (k + d) (chunk E.es w base ix k))
    (fun k t => t.r = s.r ∧ t.v = s.v ∧ t.frame = s.frame ∧
      (∀ q, q < k → ∀ l, l < E.lanes w → t.mem (p + E.es * (q * E.lanes w + l)) = s.v (q + d) l) ∧
      ∀ a, (∀ j, j < k * E.lanes w → a ≠ p + E.es * j) → t.mem a = s.mem a) u
    ⟨rfl, rfl, rfl, fun q hq => by omega, fun _ _ => rfl⟩
    (by
      rintro k hk t ⟨h1, h2, h3, h4, h5⟩
      have ha : t.addr (chunk E.es w base ix k) = p + E.es * (k * E.lanes w) := by
        rw [addr_congr h1, ← hb]
        simp only [St.addr, chunk, Env.lanes, Nat.add_zero]; ring
      have hle : (k + 1) * E.lanes w ≤ u * E.lanes w := Nat.mul_le_mul_right _ hk
      have hk1 : (k + 1) * E.lanes w = k * E.lanes w + E.lanes w := by ring
      have hok : E.ok E.wr (t.addr (chunk E.es w base ix k)) (E.lanes w) = true := by
        refine ok_of fun l hl => ?_
        rw [ha, Nat.add_assoc, ← Nat.mul_add]
        exact hwr _ (by omega)
      refine ⟨_, if_pos hok, h1, h2, h3, ?_, ?_⟩
      · intro q hq l hl
        simp only [ha]
        by_cases hqk : q = k
        · subst hqk
          rw [Nat.mul_add, ← Nat.add_assoc, write_in hes hl, h2]
        · rw [write_out]
          · exact h4 q (by omega) l hl
          · intro l' hl' he
            have hq1 : (q + 1) * E.lanes w ≤ k * E.lanes w := Nat.mul_le_mul_right _ (by omega)
            have hq2 : (q + 1) * E.lanes w = q * E.lanes w + E.lanes w := by ring
            have he' : E.es * (q * E.lanes w + l) = E.es * (k * E.lanes w + l') := by
              rw [Nat.mul_add (E.es) (k * E.lanes w) l']; omega
            have := Nat.eq_of_mul_eq_mul_left hes he'
            omega
      · intro a hal
        simp only [ha]
        rw [write_out]
        · exact h5 a fun j hj => hal j (by omega)
        · intro l hl
          rw [Nat.add_assoc, ← Nat.mul_add]
          exact hal _ (by omega))
  exact ⟨t, ht, h1, h2, h3, h4, h5⟩

/-- `u` operations `reg := reg op other`, `other` a register below `d`. -/
theorem opsV {o : Arith} {g : Nat → Nat} {d u : Nat} {s : St R} (hg : ∀ k, k < u → g k < d) :
    ∃ t, execs E ((List.range u).map fun k => Ins.op2 o w (.v (g k)) (k + d)) s = some t ∧
      t.r = s.r ∧ t.mem = s.mem ∧ t.frame = s.frame ∧
      (∀ k, k < u → ∀ l, l < E.lanes w → t.v (k + d) l = E.alu.op o (s.v (k + d) l) (s.v (g k) l)) ∧
      ∀ q, (q < d ∨ u + d ≤ q) → t.v q = s.v q := by
  obtain ⟨t, ht, h1, h2, h3, h4, h5⟩ := execs_range (E := E) (s := s)
    (fun k => Ins.op2 o w (.v (g k)) (k + d))
    (fun k t => t.r = s.r ∧ t.mem = s.mem ∧ t.frame = s.frame ∧
      (∀ q, q < k → ∀ l, l < E.lanes w → t.v (q + d) l = E.alu.op o (s.v (q + d) l) (s.v (g q) l)) ∧
      ∀ q, (q < d ∨ k + d ≤ q) → t.v q = s.v q) u
    ⟨rfl, rfl, rfl, fun q hq => by omega, fun _ _ => rfl⟩
    (by
      rintro k hk t ⟨h1, h2, h3, h4, h5⟩
      refine ⟨t.setV (k + d) (keep (E.lanes w) (fun l => E.alu.op o (t.v (k + d) l) (t.v (g k) l))
        (t.v (k + d))), by simp [exec, Env.src], h1, h2, h3, ?_, ?_⟩
      · intro q hq l hl
        by_cases hqk : q = k
        · subst hqk
          simp only [St.setV, keep, if_true, hl, h5 (q + d) (by omega), h5 (g q) (.inl (hg q hk))]
        · have : ¬ q + d = k + d := by omega
          simp only [St.setV, this, if_false]
          exact h4 q (by omega) l hl
      · intro q hq
        have : ¬ q = k + d := by omega
        simp only [St.setV, this, if_false]
        exact h5 q (by omega))
  exact ⟨t, ht, h1, h2, h3, h4, h5⟩

/-- `u` operations with consecutive chunks of an array. -/
theorem opsM {o : Arith} {base : Reg} {ix : Option (Reg × Nat)} {d u p : Nat} {s : St R}
    (hb : s.addr ⟨base, ix, 0⟩ = p)
    (hrd : ∀ j, j < u * E.lanes w → E.rd (p + E.es * j) = true)
    (hal : w = .x → p % 16 = 0 ∧ 16 ∣ E.es * E.lanes w) :
    ∃ t, execs E ((List.range u).map fun k =>
        Ins.op2 o w (.m (chunk E.es w base ix k)) (k + d)) s = some t ∧
      t.r = s.r ∧ t.mem = s.mem ∧ t.frame = s.frame ∧
      (∀ k, k < u → ∀ l, l < E.lanes w → t.v (k + d) l =
        E.alu.op o (s.v (k + d) l) (s.mem (p + E.es * (k * E.lanes w + l)))) ∧
      ∀ q, (q < d ∨ u + d ≤ q) → t.v q = s.v q := by
  obtain ⟨t, ht, h1, h2, h3, h4, h5⟩ := execs_range (E := E) (s := s)
    (fun k => Ins.op2 o w (.m (chunk E.es w base ix k)) (k + d))
    (fun k t => t.r = s.r ∧ t.mem = s.mem ∧ t.frame = s.frame ∧
      (∀ q, q < k → ∀ l, l < E.lanes w → t.v (q + d) l =
        E.alu.op o (s.v (q + d) l) (s.mem (p + E.es * (q * E.lanes w + l)))) ∧
      ∀ q, (q < d ∨ k + d ≤ q) → t.v q = s.v q) u
    ⟨rfl, rfl, rfl, fun q hq => by omega, fun _ _ => rfl⟩
    (by
      rintro k hk t ⟨h1, h2, h3, h4, h5⟩
      have ha : t.addr (chunk E.es w base ix k) = p + E.es * (k * E.lanes w) := by
        rw [addr_congr h1, ← hb]
        simp only [St.addr, chunk, Env.lanes, Nat.add_zero]; ring
      have hle : (k + 1) * E.lanes w ≤ u * E.lanes w := Nat.mul_le_mul_right _ hk
      have hk1 : (k + 1) * E.lanes w = k * E.lanes w + E.lanes w := by ring
      have hok : E.ok E.rd (t.addr (chunk E.es w base ix k)) (E.lanes w) = true := by
        refine ok_of fun l hl => ?_
        rw [ha, Nat.add_assoc, ← Nat.mul_add]
        exact hrd _ (by omega)
      have hal' : w = .x → t.addr (chunk E.es w base ix k) % 16 = 0 := by
        intro hw
        obtain ⟨h, c, hc⟩ := hal hw
        have : E.es * (k * E.lanes w) = 16 * (c * k) := by
          calc E.es * (k * E.lanes w) = (E.es * E.lanes w) * k := by ring
            _ = _ := by rw [hc]; ring
        rw [ha]; omega
      have hs : E.src t w (.m (chunk E.es w base ix k)) =
          some fun l => t.mem (t.addr (chunk E.es w base ix k) + E.es * l) := by
        simp only [Env.src]
        rw [if_pos ⟨hok, hal'⟩]
      refine ⟨t.setV (k + d) (keep (E.lanes w) (fun l => E.alu.op o (t.v (k + d) l)
        (t.mem (t.addr (chunk E.es w base ix k) + E.es * l)))
        (t.v (k + d))), by simp [exec, hs], h1, h2, h3, ?_, ?_⟩
      · intro q hq l hl
        by_cases hqk : q = k
        · subst hqk
          have e : p + E.es * (q * E.lanes w) + E.es * l = p + E.es * (q * E.lanes w + l) := by ring
          simp only [St.setV, keep, if_true, hl, h5 (q + d) (by omega), h2, ha, e]
        · have : ¬ q + d = k + d := by omega
          simp only [St.setV, this, if_false]
          exact h4 q (by omega) l hl
      · intro q hq
        have : ¬ q = k + d := by omega
        simp only [St.setV, this, if_false]
        exact h5 q (by omega))
  exact ⟨t, ht, h1, h2, h3, h4, h5⟩

end phases

end Verif.Gonum
