/-
Symbolic execution of straight-line vector code of 64 bits: what every lane holds afterwards, as an
expression over the registers and the memory before, and which cells are read.
-/
import Verif.Lemmas.Gonum
set_option autoImplicit false
set_option linter.unusedSimpArgs false

namespace Verif.Gonum

open Verif.Asm (Arith Alu W keep lanesOf)

variable {R : Type}

/-- Contents of a lane. -/
inductive Ex
  | v (q l : Nat)
  | ld (a : Addr) (l : Nat)
  | zero
  | op (o : Arith) (a b : Ex)

/-- Symbolic state: the registers assigned, the cells read, and whether every instruction was
understood. -/
structure Sym where
  regs : List (Nat × (Ex × Ex))
  need : List (Addr × Nat)
  good : Bool

def Sym.init : Sym := ⟨[], [], true⟩

def Sym.look (q : Nat) : List (Nat × (Ex × Ex)) → Ex × Ex
  | [] => (.v q 0, .v q 1)
  | (k, e) :: rest => if q = k then e else Sym.look q rest

def Sym.get (σ : Sym) (q : Nat) : Ex × Ex := Sym.look q σ.regs

def Sym.set (σ : Sym) (d : Nat) (e : Ex × Ex) (need : List (Addr × Nat)) : Sym :=
  ⟨(d, e) :: σ.regs, need ++ σ.need, σ.good⟩

def sel (e : Ex × Ex) (k : Nat) : Ex := if k = 0 then e.1 else e.2

def symI (σ : Sym) : Ins → Sym
  | .movV a d => σ.set d (σ.get a) []
  | .op2 o .x (.v x) d =>
    σ.set d (.op o (σ.get d).1 (σ.get x).1, .op o (σ.get d).2 (σ.get x).2) []
  | .op2 o .s (.v x) d => σ.set d (.op o (σ.get d).1 (σ.get x).1, (σ.get d).2) []
  | .op2 o .s (.m a) d => σ.set d (.op o (σ.get d).1 (.ld a 0), (σ.get d).2) [(a, 0)]
  | .ld .x a d => σ.set d (.ld a 0, .ld a 1) [(a, 0), (a, 1)]
  | .ld .s a d => σ.set d (.ld a 0, .zero) [(a, 0)]
  | .ldHi a d => σ.set d ((σ.get d).1, .ld a 0) [(a, 0)]
  | .ldDup a d => σ.set d (.ld a 0, .ld a 0) [(a, 0)]
  | .zero d => σ.set d (.zero, .zero) []
  | .shufpd k a d => σ.set d (sel (σ.get d) (k % 2), sel (σ.get a) (k / 2 % 2)) []
  | .hadd x d =>
    σ.set d (.op .add (σ.get d).1 (σ.get d).2, .op .add (σ.get x).1 (σ.get x).2) []
  | _ => { σ with good := false }

def symIs : List Ins → Sym → Sym
  | [], σ => σ
  | x :: xs, σ => symIs xs (symI σ x)

/-- The value of an expression in the state before. -/
def Ex.eval (E : Env R) (s : St R) : Ex → R
  | .v q l => s.v q l
  | .ld a l => s.mem (s.addr a + E.es * l)
  | .zero => E.alu.zero
  | .op o a b => E.alu.op o (a.eval E s) (b.eval E s)

/-- The state `t` is described by `σ` relative to `s`. -/
structure Sym.Rel (E : Env R) (s : St R) (σ : Sym) (t : St R) : Prop where
  r : t.r = s.r
  mem : t.mem = s.mem
  frame : t.frame = s.frame
  lo : ∀ q, t.v q 0 = (σ.get q).1.eval E s
  hi : ∀ q, t.v q 1 = (σ.get q).2.eval E s

theorem Sym.get_set (σ : Sym) (d : Nat) (e : Ex × Ex) (n : List (Addr × Nat)) (q : Nat) :
    (σ.set d e n).get q = if q = d then e else σ.get q := rfl

theorem Rel.set {E : Env R} {s t : St R} {σ : Sym} {d : Nat} {e : Ex × Ex} {n : List (Addr × Nat)}
    {f : Nat → R} (h : σ.Rel E s t) (h0 : f 0 = e.1.eval E s) (h1 : f 1 = e.2.eval E s) :
    (σ.set d e n).Rel E s (t.setV d f) := by
  refine ⟨h.r, h.mem, h.frame, fun q => ?_, fun q => ?_⟩
  · rw [Sym.get_set]
    by_cases hq : q = d
    · simp [St.setV, hq, h0]
    · simp only [St.setV, hq, if_false]; exact h.lo q
  · rw [Sym.get_set]
    by_cases hq : q = d
    · simp [St.setV, hq, h1]
    · simp only [St.setV, hq, if_false]; exact h.hi q

theorem symI_need (x : Ins) (σ : Sym) : ∀ p ∈ σ.need, p ∈ (symI σ x).need := by
  intro p hp
  unfold symI
  split <;> simp [Sym.set, hp]

theorem symIs_need (xs : List Ins) : ∀ σ : Sym, ∀ p ∈ σ.need, p ∈ (symIs xs σ).need := by
  induction xs with
  | nil => intro σ p hp; exact hp
  | cons x xs ih => intro σ p hp; exact ih _ _ (symI_need x σ p hp)

theorem symI_good (x : Ins) (σ : Sym) (h : (symI σ x).good = true) : σ.good = true := by
  unfold symI at h
  split at h <;> first | exact h | simp at h

theorem symIs_good (xs : List Ins) : ∀ σ : Sym, (symIs xs σ).good = true → σ.good = true := by
  induction xs with
  | nil => intro σ h; exact h
  | cons x xs ih => intro σ h; exact symI_good x σ (ih _ h)

theorem symI_sound {E : Env R} (hes : E.es = 8) {s t : St R} {σ : Sym} (x : Ins)
    (hg : (symI σ x).good = true)
    (hn : ∀ p ∈ (symI σ x).need, E.rd (s.addr p.1 + 8 * p.2) = true) (h : σ.Rel E s t) :
    ∃ t', exec E x t = some t' ∧ (symI σ x).Rel E s t' := by
  have lx : E.lanes .x = 2 := by simp [Env.lanes, lanesOf, hes]
  have ls : E.lanes .s = 1 := rfl
  have l2 : 16 / E.es = 2 := by rw [hes]
  have ha : ∀ a, t.addr a = s.addr a := fun a => addr_congr h.r a
  have hok : ∀ a n, (∀ l, l < n → E.rd (s.addr a + 8 * l) = true) →
      E.ok E.rd (t.addr a) n = true := by
    intro a n hl
    refine ok_of fun l h => ?_
    rw [ha, hes]; exact hl l h
  have two : ∀ {P : Nat → Prop}, P 0 → P 1 → ∀ l, l < 2 → P l := by
    intro P h0 h1 l hl
    obtain rfl | rfl : l = 0 ∨ l = 1 := by omega
    · exact h0
    · exact h1
  unfold symI at hg hn ⊢
  split at hg
  · rename_i a d
    exact ⟨_, rfl, Rel.set h (by simp [keep, l2, h.lo]) (by simp [keep, l2, h.hi])⟩
  · rename_i o x d
    exact ⟨_, rfl, Rel.set h (by simp [keep, lx, h.lo, Ex.eval]) (by simp [keep, lx, h.hi, Ex.eval])⟩
  · rename_i o x d
    exact ⟨_, rfl, Rel.set h (by simp [keep, ls, h.lo, Ex.eval]) (by simp [keep, ls, h.hi, Ex.eval])⟩
  · rename_i o a d
    have h0 : E.rd (s.addr a + 8 * 0) = true := hn (a, 0) (by simp [Sym.set])
    refine ⟨_, ?_, Rel.set (f := keep (E.lanes .s) (fun l => E.alu.op o (t.v d l)
      (t.mem (t.addr a + E.es * l))) (t.v d)) h (by simp [keep, ls, h.lo, Ex.eval, ha, h.mem])
      (by simp [keep, ls, h.hi, Ex.eval])⟩
    simp only [exec, Env.src]
    rw [if_pos ⟨hok _ _ fun l hl => by
      rw [ls] at hl; obtain rfl : l = 0 := by omega
      exact h0, by simp⟩]
    rfl
  · rename_i a d
    have h0 : E.rd (s.addr a + 8 * 0) = true := hn (a, 0) (by simp [Sym.set])
    have h1 : E.rd (s.addr a + 8 * 1) = true := hn (a, 1) (by simp [Sym.set])
    refine ⟨_, if_pos (hok _ _ ?_), Rel.set h (by simp [keep, lx, l2, Ex.eval, ha, h.mem])
      (by simp [keep, lx, l2, Ex.eval, ha, h.mem])⟩
    rw [lx]; exact two h0 h1
  · rename_i a d
    have h0 : E.rd (s.addr a + 8 * 0) = true := hn (a, 0) (by simp [Sym.set])
    refine ⟨_, if_pos (hok _ _ ?_), Rel.set h (by simp [keep, ls, l2, Ex.eval, ha, h.mem])
      (by simp [keep, ls, l2, Ex.eval, ha, h.mem])⟩
    intro l hl; rw [ls] at hl; obtain rfl : l = 0 := by omega
    exact h0
  · rename_i a d
    have h0 : E.rd (s.addr a + 8 * 0) = true := hn (a, 0) (by simp [Sym.set])
    refine ⟨_, if_pos (hok _ _ ?_), Rel.set h (by simp [h.lo]) (by simp [Ex.eval, ha, h.mem])⟩
    intro l hl; obtain rfl : l = 0 := by omega
    exact h0
  · rename_i a d
    have h0 : E.rd (s.addr a + 8 * 0) = true := hn (a, 0) (by simp [Sym.set])
    refine ⟨_, if_pos (hok _ _ ?_), Rel.set h (by simp [keep, l2, Ex.eval, ha, h.mem])
      (by simp [keep, l2, Ex.eval, ha, h.mem])⟩
    intro l hl; obtain rfl : l = 0 := by omega
    exact h0
  · rename_i d
    exact ⟨_, rfl, Rel.set h (by simp [keep, l2, Ex.eval]) (by simp [keep, l2, Ex.eval])⟩
  · rename_i k a d
    refine ⟨_, rfl, Rel.set h ?_ ?_⟩
    · rcases Nat.mod_two_eq_zero_or_one k with h0 | h0 <;> simp [keep, sel, h0, h.lo, h.hi]
    · rcases Nat.mod_two_eq_zero_or_one (k / 2) with h0 | h0 <;> simp [keep, sel, h0, h.lo, h.hi]
  · rename_i x d
    exact ⟨_, rfl, Rel.set h (by simp [keep, h.lo, h.hi, Ex.eval]) (by simp [keep, h.lo, h.hi, Ex.eval])⟩
  · simp at hg

theorem symIs_sound {E : Env R} (hes : E.es = 8) {s : St R} (xs : List Ins) :
    ∀ (σ : Sym) (t : St R), (symIs xs σ).good = true →
      (∀ p ∈ (symIs xs σ).need, E.rd (s.addr p.1 + 8 * p.2) = true) → σ.Rel E s t →
      ∃ t', execs E xs t = some t' ∧ (symIs xs σ).Rel E s t' := by
  induction xs with
  | nil => intro σ t _ _ h; exact ⟨t, rfl, h⟩
  | cons x xs ih =>
    intro σ t hg hn h
    obtain ⟨t1, h1, h2⟩ := symI_sound hes x (symIs_good xs _ hg)
      (fun p hp => hn p (symIs_need xs _ p hp)) h
    obtain ⟨t', h3, h4⟩ := ih _ t1 hg hn h2
    exact ⟨t', by simp [execs, h1, h3], h4⟩

/-- Straight-line vector code from `s`. -/
theorem sym_run {E : Env R} (hes : E.es = 8) (s : St R) (xs : List Ins)
    (hg : (symIs xs Sym.init).good = true)
    (hn : ∀ p ∈ (symIs xs Sym.init).need, E.rd (s.addr p.1 + 8 * p.2) = true) :
    ∃ t, execs E xs s = some t ∧ (symIs xs Sym.init).Rel E s t :=
  symIs_sound hes xs _ s hg hn ⟨rfl, rfl, rfl, fun _ => rfl, fun _ => rfl⟩

end Verif.Gonum
