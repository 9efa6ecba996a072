import Verif.Model.Asm

set_option autoImplicit false
set_option linter.unusedSimpArgs false

/-!
# Two runs of the same routine with different arithmetic

Control flow and addresses do not depend on the elements. So if a relation between the elements of two runs is kept by
the arithmetic, it holds all the time.
-/

namespace Verif.Asm

variable {R Q : Type}

/-- The operations in `ok` keep the relation; the fused operation counts as a product. -/
structure AluRel (P : R → Q → Prop) (ok : Arith → Bool) (A : Alu R) (A' : Alu Q) : Prop where
  zero : P A.zero A'.zero
  op : ∀ o, ok o = true → ∀ a b a' b', P a a' → P b b' → P (A.op o a b) (A'.op o a' b')
  fma : ok .mul = true → ∀ a b c a' b' c', P a a' → P b b' → P c c' → P (A.fma a b c) (A'.fma a' b' c')

/-- Two environments that differ in the elements only. -/
structure EnvRel (P : R → Q → Prop) (ok : Arith → Bool) (E : Env R) (E' : Env Q) : Prop where
  es : E.es = E'.es
  rd : E.rd = E'.rd
  wr : E.wr = E'.wr
  argQ : E.argQ = E'.argQ
  argF : P E.argF E'.argF
  alu : AluRel P ok E.alu E'.alu

/-- Two states that differ in the elements only. -/
structure StRel (P : R → Q → Prop) (s : St R) (s' : St Q) : Prop where
  r : s.r = s'.r
  zf : s.zf = s'.zf
  lt : s.lt = s'.lt
  v : ∀ x l, P (s.v x l) (s'.v x l)
  mem : ∀ a, P (s.mem a) (s'.mem a)
  out : match s.out, s'.out with
    | some a, some b => P a b
    | none, none => True
    | _, _ => False

/-- The instruction uses only operations in `ok`. -/
def Ins.uses (ok : Arith → Bool) : Ins → Bool
  | .op2 o _ _ _ => ok o
  | .op3 o _ _ _ _ => ok o
  | .hadd2 _ _ => ok .add
  | .hadd3 _ _ _ => ok .add
  | .fma _ _ _ _ => ok .mul
  | _ => true

def Line.uses (ok : Arith → Bool) : Line → Bool
  | .i x => x.uses ok
  | _ => true

variable {P : R → Q → Prop} {ok : Arith → Bool} {E : Env R} {E' : Env Q} {s t : St R} {s' : St Q}

theorem StRel.setR (h : StRel P s s') (d : Reg) (a : Nat) : StRel P (s.setR d a) (s'.setR d a) :=
  ⟨by simp only [St.setR, h.r], h.zf, h.lt, h.v, h.mem, h.out⟩

theorem StRel.setV (h : StRel P s s') (d : Nat) {f : Nat → R} {f' : Nat → Q} (hf : ∀ l, P (f l) (f' l)) :
    StRel P (s.setV d f) (s'.setV d f') := by
  refine ⟨h.r, h.zf, h.lt, fun x l => ?_, h.mem, h.out⟩
  simp only [St.setV]
  by_cases hx : x = d
  · simp only [if_pos hx]; exact hf l
  · simp only [if_neg hx]; exact h.v x l

theorem StRel.flags (h : StRel P s s') (z : Bool) : StRel P { s with zf := z } { s' with zf := z } :=
  ⟨h.r, rfl, h.lt, h.v, h.mem, h.out⟩

theorem keep_rel {n : Nat} {f g : Nat → R} {f' g' : Nat → Q} (hf : ∀ l, P (f l) (f' l)) (hg : ∀ l, P (g l) (g' l))
    (l : Nat) : P (keep n f g l) (keep n f' g' l) := by
  simp only [keep]; split
  · exact hf l
  · exact hg l

theorem vex_rel (hE : EnvRel P ok E E') {n : Nat} {f g : Nat → R} {f' g' : Nat → Q} (hf : ∀ l, P (f l) (f' l))
    (hg : ∀ l, P (g l) (g' l)) (l : Nat) : P (E.vex n f g l) (E'.vex n f' g' l) := by
  simp only [Env.vex, hE.es]
  by_cases h1 : l < n
  · simp only [if_pos h1]; exact hf l
  · simp only [if_neg h1]
    by_cases h2 : l < 16 / E'.es
    · simp only [if_pos h2]; exact hg l
    · simp only [if_neg h2]; exact hE.alu.zero

theorem hadd_rel (hE : EnvRel P ok E E') (hok : ok .add = true) {n : Nat} {f g : Nat → R} {f' g' : Nat → Q}
    (hf : ∀ l, P (f l) (f' l)) (hg : ∀ l, P (g l) (g' l)) (l : Nat) : P (E.hadd n f g l) (E'.hadd n f' g' l) := by
  simp only [Env.hadd]; split
  · exact hE.alu.op _ hok _ _ _ _ (hf _) (hf _)
  · exact hE.alu.op _ hok _ _ _ _ (hg _) (hg _)

theorem addr_rel (h : StRel P s s') (a : Addr) : s.addr a = s'.addr a := by simp only [St.addr, h.r]

theorem lanes_rel (hE : EnvRel P ok E E') (w : W) : E.lanes w = E'.lanes w := by simp only [Env.lanes, hE.es]

theorem rd_rel (hE : EnvRel P ok E E') (p n : Nat) : E.ok E.rd p n = E'.ok E'.rd p n := by
  simp only [Env.ok, hE.es, hE.rd]

theorem wr_rel (hE : EnvRel P ok E E') (p n : Nat) : E.ok E.wr p n = E'.ok E'.wr p n := by
  simp only [Env.ok, hE.es, hE.wr]

theorem src_rel (hE : EnvRel P ok E E') (h : StRel P s s') {w : W} {al : Bool} {x : Src} {f : Nat → R}
    (hx : E.src s w al x = some f) : ∃ f', E'.src s' w al x = some f' ∧ ∀ l, P (f l) (f' l) := by
  cases x with
  | v x =>
    obtain rfl := Option.some.inj hx
    exact ⟨_, rfl, h.v x⟩
  | m a =>
    simp only [Env.src] at hx ⊢
    split at hx
    · rename_i hc
      obtain rfl := Option.some.inj hx
      rw [rd_rel hE, lanes_rel hE, addr_rel h] at hc
      exact ⟨_, if_pos hc, fun l => by rw [addr_rel h, hE.es]; exact h.mem _⟩
    · cases hx

theorem exec_rel (hE : EnvRel P ok E E') (h : StRel P s s') {x : Ins} (hx : x.uses ok = true)
    (he : exec E x s = some t) : ∃ t', exec E' x s' = some t' ∧ StRel P t t' := by
  have hz := hE.alu.zero
  cases x with
  | argQ off d =>
    obtain rfl := Option.some.inj he
    exact ⟨_, rfl, by simp only [exec, hE.argQ]; exact h.setR _ _⟩
  | argF off d =>
    obtain rfl := Option.some.inj he
    refine ⟨_, rfl, h.setV _ fun l => ?_⟩
    rw [hE.es]
    refine keep_rel (fun l => ?_) (h.v d) l
    show P (if l = 0 then E.argF else E.alu.zero) (if l = 0 then E'.argF else E'.alu.zero)
    split
    · exact hE.argF
    · exact hz
  | retF x off =>
    obtain rfl := Option.some.inj he
    exact ⟨_, rfl, ⟨h.r, h.zf, h.lt, h.v, h.mem, h.v x 0⟩⟩
  | movQ a d =>
    obtain rfl := Option.some.inj he
    exact ⟨_, rfl, by rw [h.r]; exact h.setR _ _⟩
  | andQ k d | xorQ k d | shrQ k d | addQ k d | incQ d =>
    obtain rfl := Option.some.inj he
    exact ⟨_, rfl, by rw [h.r]; exact (h.setR _ _).flags _⟩
  | subQ k d =>
    simp only [exec] at he ⊢
    split at he
    · rename_i hc
      obtain rfl := Option.some.inj he
      rw [h.r] at hc
      exact ⟨_, if_pos hc, by rw [h.r]; exact (h.setR _ _).flags _⟩
    · cases he
  | decQ d =>
    simp only [exec] at he ⊢
    split at he
    · rename_i hc
      obtain rfl := Option.some.inj he
      rw [h.r] at hc
      exact ⟨_, if_pos hc, by rw [h.r]; exact (h.setR _ _).flags _⟩
    · cases he
  | cmpQ a k =>
    obtain rfl := Option.some.inj he
    exact ⟨_, rfl, ⟨h.r, by rw [h.r], by rw [h.r], h.v, h.mem, h.out⟩⟩
  | ld vex w a d =>
    simp only [exec] at he ⊢
    split at he
    · rename_i hc
      obtain rfl := Option.some.inj he
      rw [rd_rel hE, lanes_rel hE, addr_rel h] at hc
      have hf : ∀ l, P (if l < E.lanes w then s.mem (s.addr a + E.es * l) else E.alu.zero)
          (if l < E'.lanes w then s'.mem (s'.addr a + E'.es * l) else E'.alu.zero) := by
        intro l
        rw [lanes_rel hE, addr_rel h, hE.es]
        split
        · exact h.mem _
        · exact hz
      refine ⟨_, if_pos hc, h.setV _ fun l => ?_⟩
      cases vex with
      | true => exact hf l
      | false => exact (congrArg (16 / ·) hE.es : 16 / E.es = 16 / E'.es) ▸ keep_rel hf (h.v d) l
    · cases he
  | st w x a =>
    simp only [exec] at he ⊢
    split at he
    · rename_i hc
      obtain rfl := Option.some.inj he
      rw [wr_rel hE, lanes_rel hE, addr_rel h] at hc
      refine ⟨_, if_pos hc, ⟨h.r, h.zf, h.lt, h.v, fun b => ?_, h.out⟩⟩
      simp only [Env.write, hE.es, lanes_rel hE, addr_rel h]
      by_cases hb : s'.addr a ≤ b ∧ (b - s'.addr a) % E'.es = 0 ∧ (b - s'.addr a) / E'.es < E'.lanes w
      · simp only [if_pos hb]; exact h.v _ _
      · simp only [if_neg hb]; exact h.mem _
    · cases he
  | op2 o w x d =>
    obtain ⟨f, hf, he⟩ := Option.bind_eq_some_iff.mp he
    obtain rfl := Option.some.inj he
    obtain ⟨f', hf', hl⟩ := src_rel hE h hf
    refine ⟨_, Option.bind_eq_some_iff.mpr ⟨f', hf', rfl⟩, h.setV _ fun l => ?_⟩
    simp only [Env.lanes, hE.es]
    exact keep_rel (fun l => hE.alu.op o hx _ _ _ _ (h.v d l) (hl l)) (h.v d) l
  | op3 o w x a d =>
    obtain ⟨f, hf, he⟩ := Option.bind_eq_some_iff.mp he
    obtain rfl := Option.some.inj he
    obtain ⟨f', hf', hl⟩ := src_rel hE h hf
    refine ⟨_, Option.bind_eq_some_iff.mpr ⟨f', hf', rfl⟩, h.setV _ fun l => ?_⟩
    simp only [Env.lanes, hE.es]
    exact vex_rel hE (fun l => hE.alu.op o hx _ _ _ _ (h.v a l) (hl l)) (h.v a) l
  | fma w x a d =>
    obtain ⟨f, hf, he⟩ := Option.bind_eq_some_iff.mp he
    obtain rfl := Option.some.inj he
    obtain ⟨f', hf', hl⟩ := src_rel hE h hf
    refine ⟨_, Option.bind_eq_some_iff.mpr ⟨f', hf', rfl⟩, h.setV _ fun l => ?_⟩
    simp only [Env.lanes, hE.es]
    exact vex_rel hE (fun l => hE.alu.fma hx _ _ _ _ _ _ (h.v a l) (hl l) (h.v d l)) (h.v d) l
  | zero2 d =>
    obtain rfl := Option.some.inj he
    exact ⟨_, rfl, h.setV _ fun l => by rw [hE.es]; exact keep_rel (fun _ => hz) (h.v d) l⟩
  | zero3 d =>
    obtain rfl := Option.some.inj he
    exact ⟨_, rfl, h.setV _ fun _ => hz⟩
  | zeroAll =>
    obtain rfl := Option.some.inj he
    exact ⟨_, rfl, ⟨h.r, h.zf, h.lt, fun _ _ => hz, h.mem, h.out⟩⟩
  | hadd2 x d =>
    obtain rfl := Option.some.inj he
    exact ⟨_, rfl, h.setV _ fun l => by
      rw [hE.es]; exact keep_rel (hadd_rel hE hx (h.v d) (h.v x)) (h.v d) l⟩
  | hadd3 x a d =>
    obtain rfl := Option.some.inj he
    exact ⟨_, rfl, h.setV _ fun l => by
      rw [hE.es]; exact vex_rel hE (hadd_rel hE hx (h.v a) (h.v x)) (h.v a) l⟩
  | ext1 x d =>
    obtain rfl := Option.some.inj he
    exact ⟨_, rfl, h.setV _ fun l => by
      rw [hE.es]; exact vex_rel hE (fun l => h.v x _) (h.v x) l⟩
  | bcast x d =>
    obtain rfl := Option.some.inj he
    exact ⟨_, rfl, h.setV _ fun _ => h.v x 0⟩
  | shuf0 d =>
    obtain rfl := Option.some.inj he
    exact ⟨_, rfl, h.setV _ fun l => by rw [hE.es]; exact keep_rel (fun _ => h.v d 0) (h.v d) l⟩

theorem holds_rel (h : StRel P s s') (c : Cond) : c.holds s = c.holds s' := by
  cases c <;> simp only [Cond.holds, h.zf, h.lt]

theorem after_uses {code : List Line} (h : ∀ x ∈ code, x.uses ok = true) (l : Lbl) :
    ∀ x ∈ after l code, x.uses ok = true := by
  induction code with
  | nil => simp [after]
  | cons y code ih =>
    have ih := ih fun x hx => h x (List.mem_cons_of_mem _ hx)
    cases y with
    | label k =>
      simp only [after]
      split
      · exact fun x hx => h x (List.mem_cons_of_mem _ hx)
      · exact ih
    | _ => exact ih

theorem run_rel (hE : EnvRel P ok E E') {code l : List Line} (hc : ∀ x ∈ code, x.uses ok = true)
    (hr : Run E code l s t) (hl : ∀ x ∈ l, x.uses ok = true) (h : StRel P s s') :
    ∃ t', Run E' code l s' t' ∧ StRel P t t' := by
  induction hr generalizing s' with
  | label _ ih =>
    obtain ⟨t', h1, h2⟩ := ih (fun x hx => hl x (List.mem_cons_of_mem _ hx)) h
    exact ⟨t', .label h1, h2⟩
  | ins he _ ih =>
    obtain ⟨s1', hs, hst⟩ := exec_rel hE h (hl _ List.mem_cons_self) he
    obtain ⟨t', h1, h2⟩ := ih (fun x hx => hl x (List.mem_cons_of_mem _ hx)) hst
    exact ⟨t', .ins hs h1, h2⟩
  | jmp _ ih =>
    obtain ⟨t', h1, h2⟩ := ih (after_uses hc _) h
    exact ⟨t', .jmp h1, h2⟩
  | taken hh _ ih =>
    obtain ⟨t', h1, h2⟩ := ih (after_uses hc _) h
    exact ⟨t', .taken (by rw [← holds_rel h]; exact hh) h1, h2⟩
  | falls hh _ ih =>
    obtain ⟨t', h1, h2⟩ := ih (fun x hx => hl x (List.mem_cons_of_mem _ hx)) h
    exact ⟨t', .falls (by rw [← holds_rel h]; exact hh) h1, h2⟩
  | ret => exact ⟨s', .ret, h⟩

theorem call_rel (hE : EnvRel P ok E E') {code : List Line} (hc : ∀ x ∈ code, x.uses ok = true)
    (hr : Call E code s t) (h : StRel P s s') : ∃ t', Call E' code s' t' ∧ StRel P t t' :=
  run_rel hE hc hr hc h

end Verif.Asm
