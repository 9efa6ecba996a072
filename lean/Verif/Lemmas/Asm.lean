/- Runs of the assembly machine: straight-line segments, loops, phases of an unrolled body. -/
import Mathlib.Tactic.Ring
import Mathlib.Tactic.NormNum
import Mathlib.Tactic.Common
import Verif.Model.Asm
set_option autoImplicit false
set_option linter.unusedSimpArgs false

namespace Verif.Asm

variable {R : Type}

theorem Run.det {E : Env R} {code l : List Line} {s a b : St R} (h : Run E code l s a)
    (h' : Run E code l s b) : a = b := by
  induction h with
  | label _ ih => cases h' with | label h' => exact ih h'
  | ins he _ ih =>
    cases h' with
    | ins he' h' => rw [he] at he'; cases he'; exact ih h'
  | jmp _ ih => cases h' with | jmp h' => exact ih h'
  | taken hc _ ih =>
    cases h' with
    | taken _ h' => exact ih h'
    | falls hc' _ => rw [hc] at hc'; cases hc'
  | falls hc _ ih =>
    cases h' with
    | taken hc' _ => rw [hc] at hc'; cases hc'
    | falls _ h' => exact ih h'
  | ret => cases h'; rfl

/-- Straight-line code. -/
def seg (xs : List Ins) : List Line := xs.map .i

def execs (E : Env R) : List Ins → St R → Option (St R)
  | [], s => some s
  | x :: xs, s => (exec E x s).bind (execs E xs)

theorem execs_append {E : Env R} {xs ys : List Ins} {s s1 : St R}
    (h : execs E xs s = some s1) : execs E (xs ++ ys) s = execs E ys s1 := by
  induction xs generalizing s with
  | nil => simp [execs] at h; simp [h]
  | cons x xs ih =>
    simp only [execs, List.cons_append] at h ⊢
    cases he : exec E x s with
    | none => simp [he] at h
    | some s2 => simp [he] at h ⊢; exact ih h

theorem Run.seg {E : Env R} {code rest : List Line} {xs : List Ins} {s s1 s' : St R}
    (h : execs E xs s = some s1) (hr : Run E code rest s1 s') :
    Run E code (Asm.seg xs ++ rest) s s' := by
  induction xs generalizing s with
  | nil => simp [execs] at h; subst h; exact hr
  | cons x xs ih =>
    simp only [execs] at h
    cases he : exec E x s with
    | none => simp [he] at h
    | some s2 => simp [he] at h; exact .ins he (ih h)

theorem after_seg (l : Lbl) (xs : List Ins) (rest : List Line) :
    after l (seg xs ++ rest) = after l rest := by
  induction xs with
  | nil => rfl
  | cons x xs ih => exact ih

/-- Repeating an instruction with a running index. -/
theorem execs_range {E : Env R} (g : Nat → Ins) (P : Nat → St R → Prop) (u : Nat) {s : St R}
    (h0 : P 0 s)
    (step : ∀ k, k < u → ∀ t, P k t → ∃ t', exec E (g k) t = some t' ∧ P (k + 1) t') :
    ∃ t, execs E ((List.range u).map g) s = some t ∧ P u t := by
  induction u with
  | zero => exact ⟨s, rfl, h0⟩
  | succ u ih =>
    obtain ⟨t, ht, hp⟩ := ih fun k hk => step k (by omega)
    obtain ⟨t', ht', hp'⟩ := step u (by omega) t hp
    refine ⟨t', ?_, hp'⟩
    rw [List.range_succ, List.map_append, execs_append ht]
    simp [execs, ht']

/-! ### Loops -/

section loop
variable {E : Env R} {code : List Line} {n : Nat} {cnt : Reg} {Post : St R → Prop}

/-- `L: CMPQ cnt, $c; JL next; body; JMP L`. -/
theorem loop_l {Inv : Nat → St R → Prop} {c : Nat} (hc : 0 < c) {L N : Lbl} {body : List Ins}
    {rest : List Line}
    (hL : after L code = .i (.cmpQ cnt c) :: .jcc .l N :: (seg body ++ .jmp L :: rest))
    (hcnt : ∀ i s, Inv i s → i ≤ n ∧ s.r cnt = n - i)
    (hfl : ∀ i s z l, Inv i s → Inv i { s with zf := z, lt := l })
    (hbody : ∀ i s, Inv i s → i + c ≤ n → ∃ s', execs E body s = some s' ∧ Inv (i + c) s')
    (hnext : ∀ i s, Inv i s → n < i + c → ∃ s', Run E code (after N code) s s' ∧ Post s') :
    ∀ i s, Inv i s → ∃ s', Run E code (after L code) s s' ∧ Post s' := by
  suffices H : ∀ k i s, n - i ≤ k → Inv i s →
      ∃ s', Run E code (after L code) s s' ∧ Post s' from fun i s h => H _ i s le_rfl h
  intro k
  induction k with
  | zero =>
    intro i s hk h
    obtain ⟨hi, hr⟩ := hcnt i s h
    have h1 := hfl i s (s.r cnt == c) (decide (s.r cnt < c)) h
    obtain ⟨s', hs', hp⟩ := hnext i _ h1 (by omega)
    refine ⟨s', ?_, hp⟩
    rw [hL]
    refine .ins rfl (.taken ?_ hs')
    simp [Cond.holds, exec]; omega
  | succ k ih =>
    intro i s hk h
    obtain ⟨hi, hr⟩ := hcnt i s h
    have h1 := hfl i s (s.r cnt == c) (decide (s.r cnt < c)) h
    by_cases hlt : n < i + c
    · obtain ⟨s', hs', hp⟩ := hnext i _ h1 hlt
      refine ⟨s', ?_, hp⟩
      rw [hL]
      refine .ins rfl (.taken ?_ hs')
      simp [Cond.holds, exec]; omega
    · obtain ⟨t, ht, hi'⟩ := hbody i _ h1 (by omega)
      obtain ⟨s', hs', hp⟩ := ih (i + c) t (by omega) hi'
      refine ⟨s', ?_, hp⟩
      rw [hL]
      refine .ins rfl (.falls ?_ (Run.seg ht (.jmp hs')))
      simp [Cond.holds, exec]; omega

/-- `L: CMPQ cnt, $0; JE next; body; JMP L`. -/
theorem loop_z {Inv : Nat → St R → Prop} {L N : Lbl} {body : List Ins} {rest : List Line}
    (hL : after L code = .i (.cmpQ cnt 0) :: .jcc .z N :: (seg body ++ .jmp L :: rest))
    (hcnt : ∀ i s, Inv i s → i ≤ n ∧ s.r cnt = n - i)
    (hfl : ∀ i s z l, Inv i s → Inv i { s with zf := z, lt := l })
    (hbody : ∀ i s, Inv i s → i + 1 ≤ n → ∃ s', execs E body s = some s' ∧ Inv (i + 1) s')
    (hnext : ∀ s, Inv n s → ∃ s', Run E code (after N code) s s' ∧ Post s') :
    ∀ i s, Inv i s → ∃ s', Run E code (after L code) s s' ∧ Post s' := by
  suffices H : ∀ k i s, n - i ≤ k → Inv i s →
      ∃ s', Run E code (after L code) s s' ∧ Post s' from fun i s h => H _ i s le_rfl h
  have stop : ∀ i s, n ≤ i → Inv i s → ∃ s', Run E code (after L code) s s' ∧ Post s' := by
    intro i s hk h
    obtain ⟨hi, hr⟩ := hcnt i s h
    have h1 := hfl i s (s.r cnt == 0) (decide (s.r cnt < 0)) h
    obtain rfl : i = n := by omega
    obtain ⟨s', hs', hp⟩ := hnext _ h1
    refine ⟨s', ?_, hp⟩
    rw [hL]
    refine .ins rfl (.taken ?_ hs')
    simp [Cond.holds, exec]; omega
  intro k
  induction k with
  | zero => intro i s hk h; exact stop i s (by omega) h
  | succ k ih =>
    intro i s hk h
    obtain ⟨hi, hr⟩ := hcnt i s h
    have h1 := hfl i s (s.r cnt == 0) (decide (s.r cnt < 0)) h
    by_cases hlt : n ≤ i
    · exact stop i s hlt h
    · obtain ⟨t, ht, hi'⟩ := hbody i _ h1 (by omega)
      obtain ⟨s', hs', hp⟩ := ih (i + 1) t (by omega) hi'
      refine ⟨s', ?_, hp⟩
      rw [hL]
      refine .ins rfl (.falls ?_ (Run.seg ht (.jmp hs')))
      simp [Cond.holds, exec]; omega

theorem and15 (p : Nat) : p &&& 15 = p % 16 := Nat.and_two_pow_sub_one_eq_mod p 4

/-- `(p & 15) ^ 15 + 1 >> 2` is the number of 4-byte elements up to the next multiple of 16. -/
theorem gap32 {p : Nat} (h4 : p % 4 = 0) (h16 : p % 16 ≠ 0) :
    ∃ k, (((p % 16) ^^^ 15) + 1) >>> 2 = k + 1 ∧ (p + 4 * (k + 1)) % 16 = 0 := by
  have : p % 16 = 4 ∨ p % 16 = 8 ∨ p % 16 = 12 := by omega
  rcases this with h | h | h <;> rw [h]
  · exact ⟨2, by decide, by omega⟩
  · exact ⟨1, by decide, by omega⟩
  · exact ⟨0, by decide, by omega⟩

/-- The alignment loop of the 32-bit SSE routines. -/
theorem align_loop {Inv : Nat → St R → Prop} {tmp : Reg} {body : List Ins} {N : Lbl}
    {rest : List Line} {p : Nat}
    (hL : after .alignmentLoop code = seg body ++ .jcc .z N :: .i (.decQ tmp) ::
      .jcc .nz .alignmentLoop :: rest)
    (htmp : ∀ i s a z, Inv i s → Inv i { s.setR tmp a with zf := z })
    (hbody : ∀ i s, Inv i s → i + 1 ≤ n → ∃ s', execs E body s = some s' ∧ Inv (i + 1) s' ∧
      s'.r tmp = s.r tmp ∧ s'.zf = (n - (i + 1) == 0))
    (hend : ∀ s, Inv n s → ∃ s', Run E code (after N code) s s' ∧ Post s')
    (hgo : ∀ i s, Inv i s → (p + 4 * i) % 16 = 0 → ∃ s', Run E code rest s s' ∧ Post s') :
    ∀ k i s, Inv i s → i < n → s.r tmp = k + 1 → (p + 4 * (i + (k + 1))) % 16 = 0 →
      ∃ s', Run E code (after .alignmentLoop code) s s' ∧ Post s' := by
  intro k
  induction k with
  | zero =>
    intro i s h hi ht hal
    obtain ⟨t, h1, h2, h3, h4⟩ := hbody i s h hi
    by_cases hn : i + 1 = n
    · obtain ⟨s', hs', hp⟩ := hend t (hn ▸ h2)
      refine ⟨s', ?_, hp⟩
      rw [hL]
      exact Run.seg h1 (.taken (by simp [Cond.holds, h4]; omega) hs')
    · have h5 := htmp _ t (t.r tmp - 1) (t.r tmp - 1 == 0) h2
      obtain ⟨s', hs', hp⟩ := hgo _ _ h5 (by simpa using hal)
      refine ⟨s', ?_, hp⟩
      rw [hL]
      refine Run.seg h1 (.falls (by simp [Cond.holds, h4]; omega)
        (.ins (if_pos (by omega)) (.falls ?_ hs')))
      simp [Cond.holds, h3, ht]
  | succ k ih =>
    intro i s h hi ht hal
    obtain ⟨t, h1, h2, h3, h4⟩ := hbody i s h hi
    by_cases hn : i + 1 = n
    · obtain ⟨s', hs', hp⟩ := hend t (hn ▸ h2)
      refine ⟨s', ?_, hp⟩
      rw [hL]
      exact Run.seg h1 (.taken (by simp [Cond.holds, h4]; omega) hs')
    · have h5 := htmp _ t (t.r tmp - 1) (t.r tmp - 1 == 0) h2
      obtain ⟨s', hs', hp⟩ := ih (i + 1) _ h5 (by omega) (by simp [St.setR, h3, ht])
        (by rw [show i + 1 + (k + 1) = i + (k + 1 + 1) by omega]; exact hal)
      refine ⟨s', ?_, hp⟩
      rw [hL]
      refine Run.seg h1 (.falls (by simp [Cond.holds, h4]; omega)
        (.ins (if_pos (by omega)) (.taken ?_ hs')))
      simp [Cond.holds, h3, ht]

/-- What both alignment preludes begin with. -/
theorem prelude {Inv : Nat → St R → Prop} {tmp ptr : Reg} {N U : Lbl} {rest : List Line} {p : Nat}
    (htp : ptr ≠ tmp)
    (hcnt : ∀ i s, Inv i s → i ≤ n ∧ s.r cnt = n - i)
    (hptr : ∀ s, Inv 0 s → s.r ptr = p)
    (hfl : ∀ i s z l, Inv i s → Inv i { s with zf := z, lt := l })
    (htmp : ∀ i s a z, Inv i s → Inv i { s.setR tmp a with zf := z })
    (hend : ∀ s, Inv n s → ∃ s', Run E code (after N code) s s' ∧ Post s')
    (hU : ∀ s, Inv 0 s → p % 16 = 0 → ∃ s', Run E code (after U code) s s' ∧ Post s')
    (hgo : ∀ s, Inv 0 s → 0 < n → p % 16 ≠ 0 → s.r tmp = p % 16 →
      ∃ s', Run E code rest s s' ∧ Post s') :
    ∀ s, Inv 0 s → ∃ s', Run E code (.i (.cmpQ cnt 0) :: .jcc .z N ::
      (seg [.movQ ptr tmp, .andQ 15 tmp] ++ .jcc .z U :: rest)) s s' ∧ Post s' := by
  intro s h
  have h1 := hfl 0 s (s.r cnt == 0) (decide (s.r cnt < 0)) h
  have hc := (hcnt 0 s h).2
  by_cases hn : n = 0
  · have h1' : Inv n { s with zf := s.r cnt == 0, lt := decide (s.r cnt < 0) } := by rwa [hn]
    obtain ⟨s', hs', hp⟩ := hend _ h1'
    exact ⟨s', .ins rfl (.taken (by simp [Cond.holds, hc, hn]) hs'), hp⟩
  · have hnz : Cond.holds { s with zf := s.r cnt == 0, lt := decide (s.r cnt < 0) } .z = false := by
      simp [Cond.holds, hc, hn]
    obtain ⟨t1, ht1⟩ : ∃ t1 : St R,
      t1 = { s with zf := s.r cnt == 0, lt := decide (s.r cnt < 0) } := ⟨_, rfl⟩
    rw [← ht1] at h1 hnz
    have h2 := htmp 0 _ (p % 16) (p % 16 == 0) (htmp 0 _ p t1.zf h1)
    have hp1 := hptr _ h1
    obtain ⟨t2, ht2⟩ : ∃ t2 : St R, t2 = { St.setR { t1.setR tmp p with zf := t1.zf } tmp (p % 16)
      with zf := (p % 16 == 0) } := ⟨_, rfl⟩
    rw [← ht2] at h2
    have he : execs E [.movQ ptr tmp, .andQ 15 tmp] t1 = some t2 := by
      simp [execs, exec, ht2, hp1, and15, St.setR]
    have hz : t2.zf = (p % 16 == 0) := by rw [ht2]
    have htm : t2.r tmp = p % 16 := by rw [ht2]; simp [St.setR]
    by_cases h16 : p % 16 = 0
    · obtain ⟨s', hs', hp⟩ := hU t2 h2 h16
      refine ⟨s', .ins rfl ?_, hp⟩
      rw [← ht1]
      exact .falls hnz (Run.seg he (.taken (by simp [Cond.holds, hz, h16]) hs'))
    · obtain ⟨s', hs', hp⟩ := hgo t2 h2 (by omega) h16 htm
      refine ⟨s', .ins rfl ?_, hp⟩
      rw [← ht1]
      exact .falls hnz (Run.seg he (.falls (by simp [Cond.holds, hz, h16]) hs'))

/-- The whole alignment prelude of the 32-bit SSE routines. -/
theorem prelude32 {Inv : Nat → St R → Prop} {tmp ptr : Reg} {N U : Lbl} {body : List Ins}
    {rest : List Line} {p : Nat} (htp : ptr ≠ tmp) (h4 : p % 4 = 0)
    (hL : after .alignmentLoop code = seg body ++ .jcc .z N :: .i (.decQ tmp) ::
      .jcc .nz .alignmentLoop :: rest)
    (hcnt : ∀ i s, Inv i s → i ≤ n ∧ s.r cnt = n - i)
    (hptr : ∀ s, Inv 0 s → s.r ptr = p)
    (hfl : ∀ i s z l, Inv i s → Inv i { s with zf := z, lt := l })
    (htmp : ∀ i s a z, Inv i s → Inv i { s.setR tmp a with zf := z })
    (hbody : ∀ i s, Inv i s → i + 1 ≤ n → ∃ s', execs E body s = some s' ∧ Inv (i + 1) s' ∧
      s'.r tmp = s.r tmp ∧ s'.zf = (n - (i + 1) == 0))
    (hend : ∀ s, Inv n s → ∃ s', Run E code (after N code) s s' ∧ Post s')
    (hU : ∀ s, Inv 0 s → p % 16 = 0 → ∃ s', Run E code (after U code) s s' ∧ Post s')
    (hgo : ∀ i s, Inv i s → (p + 4 * i) % 16 = 0 → ∃ s', Run E code rest s s' ∧ Post s') :
    ∀ s, Inv 0 s → ∃ s', Run E code (.i (.cmpQ cnt 0) :: .jcc .z N ::
      (seg [.movQ ptr tmp, .andQ 15 tmp] ++ .jcc .z U ::
      (seg [.xorQ 15 tmp, .incQ tmp, .shrQ 2 tmp] ++ .label .alignmentLoop ::
        (seg body ++ .jcc .z N :: .i (.decQ tmp) :: .jcc .nz .alignmentLoop :: rest)))) s s' ∧
      Post s' := by
  refine prelude htp hcnt hptr hfl htmp hend hU ?_
  intro s h hn h16 ht
  obtain ⟨k, hk, hal⟩ := gap32 h4 h16
  have h2 := htmp 0 _ (k + 1) (k + 1 == 0) h
  obtain ⟨t2, ht2⟩ : ∃ t2 : St R, t2 = { s.setR tmp (k + 1) with zf := (k + 1 == 0) } := ⟨_, rfl⟩
  rw [← ht2] at h2
  have he : execs E [.xorQ 15 tmp, .incQ tmp, .shrQ 2 tmp] s = some t2 := by
    simp only [execs, exec, Option.bind_some, ht2, St.setR, if_true, ht, hk, Option.some.injEq,
      St.mk.injEq, and_true, true_and]
    funext q; split <;> rfl
  obtain ⟨s', hs', hp⟩ := align_loop hL htmp hbody hend hgo k 0 t2 h2 hn
    (by rw [ht2]; simp [St.setR]) (by simpa using hal)
  rw [hL] at hs'
  exact ⟨s', Run.seg he (.label hs'), hp⟩

/-- The whole alignment prelude of the 64-bit SSE routines. -/
theorem prelude64 {Inv : Nat → St R → Prop} {tmp ptr : Reg} {N U : Lbl} {body : List Ins}
    {rest : List Line} {p : Nat} (htp : ptr ≠ tmp) (h8 : p % 8 = 0)
    (hcnt : ∀ i s, Inv i s → i ≤ n ∧ s.r cnt = n - i)
    (hptr : ∀ s, Inv 0 s → s.r ptr = p)
    (hfl : ∀ i s z l, Inv i s → Inv i { s with zf := z, lt := l })
    (htmp : ∀ i s a z, Inv i s → Inv i { s.setR tmp a with zf := z })
    (hbody : ∀ i s, Inv i s → i + 1 ≤ n → ∃ s', execs E body s = some s' ∧ Inv (i + 1) s' ∧
      s'.r tmp = s.r tmp ∧ s'.zf = (n - (i + 1) == 0))
    (hend : ∀ s, Inv n s → ∃ s', Run E code (after N code) s s' ∧ Post s')
    (hU : ∀ s, Inv 0 s → p % 16 = 0 → ∃ s', Run E code (after U code) s s' ∧ Post s')
    (hgo : ∀ i s, Inv i s → (p + 8 * i) % 16 = 0 → ∃ s', Run E code rest s s' ∧ Post s') :
    ∀ s, Inv 0 s → ∃ s', Run E code (.i (.cmpQ cnt 0) :: .jcc .z N ::
      (seg [.movQ ptr tmp, .andQ 15 tmp] ++ .jcc .z U :: (seg body ++ rest))) s s' ∧ Post s' := by
  refine prelude htp hcnt hptr hfl htmp hend hU ?_
  intro s h hn h16 ht
  obtain ⟨t, h1, h2, -, -⟩ := hbody 0 s h hn
  obtain ⟨s', hs', hp⟩ := hgo _ t h2 (by omega)
  exact ⟨s', Run.seg h1 hs', hp⟩

end loop

/-! ### Phases of an unrolled body

`w` is the width of the instructions, `L` its number of lanes, `B = es * L` its number of bytes. -/

section phases
variable {E : Env R} {w : W}

theorem ok_of {E : Env R} {perm : Nat → Bool} {p n : Nat}
    (h : ∀ l, l < n → perm (p + E.es * l) = true) : E.ok perm p n = true := by
  simpa [Env.ok] using h

theorem write_in {m : Nat → R} {p n : Nat} {f : Nat → R} (hes : 0 < E.es) {l : Nat} (hl : l < n) :
    E.write m p n f (p + E.es * l) = f l := by
  have h1 : (E.es * l) % E.es = 0 := Nat.mul_mod_right _ _
  have h2 : E.es * l / E.es = l := Nat.mul_div_cancel_left _ hes
  simp [Env.write, h1, h2, hl]

theorem write_out {m : Nat → R} {p n : Nat} {f : Nat → R} {a : Nat}
    (h : ∀ l, l < n → a ≠ p + E.es * l) : E.write m p n f a = m a := by
  unfold Env.write
  rw [if_neg]
  rintro ⟨h1, h2, h3⟩
  refine h _ h3 ?_
  have := Nat.div_add_mod (a - p) E.es
  omega

/-- `u` loads of consecutive chunks of an array into registers `d`, `d + 1`, …. -/
theorem loads {vex : Bool} {base : Reg} {d u : Nat} {s : St R}
    (hx : E.lanes w ≤ 16 / E.es ∨ vex = true)
    (hrd : ∀ j, j < u * E.lanes w → E.rd (s.r base + E.es * j) = true) :
    ∃ t, execs E ((List.range u).map fun k =>
        Ins.ld vex w ⟨base, E.es * E.lanes w * k⟩ (k + d)) s = some t ∧
      t.r = s.r ∧ t.mem = s.mem ∧ t.out = s.out ∧
      (∀ k, k < u → ∀ l, l < E.lanes w →
        t.v (k + d) l = s.mem (s.r base + E.es * (k * E.lanes w + l))) ∧
      ∀ q, (q < d ∨ u + d ≤ q) → t.v q = s.v q := by
  obtain ⟨t, ht, h1, h2, h3, h4, h5⟩ := execs_range (E := E) (s := s)
    (fun k => Ins.ld vex w ⟨base, E.es * E.lanes w * k⟩ (k + d))
    (fun k t => t.r = s.r ∧ t.mem = s.mem ∧ t.out = s.out ∧
      (∀ q, q < k → ∀ l, l < E.lanes w →
        t.v (q + d) l = s.mem (s.r base + E.es * (q * E.lanes w + l))) ∧
      ∀ q, (q < d ∨ k + d ≤ q) → t.v q = s.v q) u
    ⟨rfl, rfl, rfl, fun q hq => by omega, fun _ _ => rfl⟩
    (by
      rintro k hk t ⟨h1, h2, h3, h4, h5⟩
      have ha : t.addr ⟨base, E.es * E.lanes w * k⟩ = s.r base + E.es * (k * E.lanes w) := by
        simp [St.addr, h1]; ring
      have hok : E.ok E.rd (t.addr ⟨base, E.es * E.lanes w * k⟩) (E.lanes w) = true := by
        refine ok_of fun l hl => ?_
        rw [ha, Nat.add_assoc, ← Nat.mul_add]
        refine hrd _ ?_
        calc k * E.lanes w + l < k * E.lanes w + E.lanes w := by omega
          _ = (k + 1) * E.lanes w := by ring
          _ ≤ _ := Nat.mul_le_mul_right _ hk
      refine ⟨_, if_pos hok, h1, h2, h3, ?_, ?_⟩
      · intro q hq l hl
        by_cases hqk : q = k
        · subst hqk
          have : s.r base + E.es * (q * E.lanes w) + E.es * l
            = s.r base + E.es * (q * E.lanes w + l) := by ring
          rcases hx with hx | hx
          · have : l < 16 / E.es := by omega
            cases vex <;> simp [St.setV, keep, hl, *]
          · simp [St.setV, hx, hl, ha, h2, this]
        · have : ¬ q + d = k + d := by omega
          simp only [St.setV, this, if_false]
          exact h4 q (by omega) l hl
      · intro q hq
        have : ¬ q = k + d := by omega
        simp only [St.setV, this, if_false]
        exact h5 q (by omega))
  exact ⟨t, ht, h1, h2, h3, h4, h5⟩

/-- `u` stores of registers `d`, `d + 1`, … to consecutive chunks of an array. -/
theorem stores {base : Reg} {d u : Nat} {s : St R} (hes : 0 < E.es)
    (hwr : ∀ j, j < u * E.lanes w → E.wr (s.r base + E.es * j) = true) :
    ∃ t, execs E ((List.range u).map fun k =>
        Ins.st w (k + d) ⟨base, E.es * E.lanes w * k⟩) s = some t ∧
      t.r = s.r ∧ t.v = s.v ∧ t.out = s.out ∧
      (∀ k, k < u → ∀ l, l < E.lanes w →
        t.mem (s.r base + E.es * (k * E.lanes w + l)) = s.v (k + d) l) ∧
      ∀ a, (∀ j, j < u * E.lanes w → a ≠ s.r base + E.es * j) → t.mem a = s.mem a := by
  obtain ⟨t, ht, h1, h2, h3, h4, h5⟩ := execs_range (E := E) (s := s)
    (fun k => Ins.st w (k + d) ⟨base, E.es * E.lanes w * k⟩)
    (fun k t => t.r = s.r ∧ t.v = s.v ∧ t.out = s.out ∧
      (∀ q, q < k → ∀ l, l < E.lanes w →
        t.mem (s.r base + E.es * (q * E.lanes w + l)) = s.v (q + d) l) ∧
      ∀ a, (∀ j, j < k * E.lanes w → a ≠ s.r base + E.es * j) → t.mem a = s.mem a) u
    ⟨rfl, rfl, rfl, fun q hq => by omega, fun _ _ => rfl⟩
    (by
      rintro k hk t ⟨h1, h2, h3, h4, h5⟩
      have ha : t.addr ⟨base, E.es * E.lanes w * k⟩ = s.r base + E.es * (k * E.lanes w) := by
        simp [St.addr, h1]; ring
      have hle : (k + 1) * E.lanes w ≤ u * E.lanes w := Nat.mul_le_mul_right _ hk
      have hk1 : (k + 1) * E.lanes w = k * E.lanes w + E.lanes w := by ring
      have hok : E.ok E.wr (t.addr ⟨base, E.es * E.lanes w * k⟩) (E.lanes w) = true := by
        refine ok_of fun l hl => ?_
        rw [ha, Nat.add_assoc, ← Nat.mul_add]
        exact hwr _ (by omega)
      refine ⟨_, if_pos hok, h1, h2, h3, ?_, ?_⟩
      · intro q hq l hl
        simp only [ha]
        by_cases hqk : q = k
        · subst hqk
          rw [Nat.mul_add, ← Nat.add_assoc, write_in hes hl, h2]
        · rw [write_out]
          · exact h4 q (by omega) l hl
          · intro l' hl' he
            have hq1 : (q + 1) * E.lanes w ≤ k * E.lanes w := Nat.mul_le_mul_right _ (by omega)
            have hq2 : (q + 1) * E.lanes w = q * E.lanes w + E.lanes w := by ring
            have he' : E.es * (q * E.lanes w + l) = E.es * (k * E.lanes w + l') := by
              rw [Nat.mul_add (E.es) (k * E.lanes w) l']; omega
            have := Nat.eq_of_mul_eq_mul_left hes he'
            omega
      · intro a hal
        simp only [ha]
        rw [write_out]
        · exact h5 a fun j hj => hal j (by omega)
        · intro l hl
          rw [Nat.add_assoc, ← Nat.mul_add]
          exact hal _ (by omega))
  exact ⟨t, ht, h1, h2, h3, h4, h5⟩

/-- A memory operand that may be read. -/
theorem src_m {s : St R} {base : Reg} {off p : Nat} {al : Bool} (hp : s.addr ⟨base, off⟩ = p)
    (hrd : ∀ l, l < E.lanes w → E.rd (p + E.es * l) = true) (hal : al = true → p % 16 = 0) :
    E.src s w al (.m ⟨base, off⟩) = some fun l => s.mem (p + E.es * l) := by
  simp only [Env.src, hp]
  rw [if_pos ⟨ok_of hrd, hal⟩]

theorem exec_op2 {s : St R} {o : Arith} {x : Src} {d : Nat} {f : Nat → R}
    (h : E.src s w (decide (w = .x)) x = some f) : exec E (.op2 o w x d) s =
      some (s.setV d (keep (E.lanes w) (fun l => E.alu.op o (s.v d l) (f l)) (s.v d))) := by
  simp [exec, h]

theorem exec_op3 {s : St R} {o : Arith} {x : Src} {a d : Nat} {f : Nat → R}
    (h : E.src s w false x = some f) : exec E (.op3 o w x a d) s =
      some (s.setV d (E.vex (E.lanes w) (fun l => E.alu.op o (s.v a l) (f l)) (s.v a))) := by
  simp [exec, h]

theorem exec_fma {s : St R} {x : Src} {a d : Nat} {f : Nat → R}
    (h : E.src s w false x = some f) : exec E (.fma w x a d) s =
      some (s.setV d (E.vex (E.lanes w) (fun l => E.alu.fma (s.v a l) (f l) (s.v d l)) (s.v d))) := by
  simp [exec, h]

theorem exec_subQ {s : St R} {k : Nat} {d : Reg} (h : k ≤ s.r d) : execs E [.subQ k d] s =
      some { s.setR d (s.r d - k) with zf := (s.r d - k) == 0 } := by
  simp [execs, exec, h]

theorem exec_decQ {s : St R} {d : Reg} (h : 1 ≤ s.r d) : execs E [.decQ d] s =
      some { s.setR d (s.r d - 1) with zf := (s.r d - 1) == 0 } := by
  simp [execs, exec, h]

end phases

end Verif.Asm
