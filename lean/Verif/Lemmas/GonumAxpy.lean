/- `AxpyUnitary` and `AxpyUnitaryTo`: general form and correctness. -/
import Verif.Lemmas.Gonum
set_option autoImplicit false
set_option linter.unusedSimpArgs false

namespace Verif.Gonum

open Verif.Asm (Arith Alu W keep lanesOf Done SameOrApart index_split gap32 and15)

variable {R : Type}

/-! ### General form -/

/-- `u` registers from `d` on: load `x`, multiply by alpha, add `y`, store. -/
def axBody (es : Nat) (w : W) (ix : Option (Reg × Nat)) (u d : Nat) (py : Reg) : List Ins :=
  ((List.range u).map fun k => Ins.ld w (chunk es w .SI ix k) (k + d)) ++
  (((List.range u).map fun k => Ins.op2 .mul w (.v (k % 2)) (k + d)) ++
  (((List.range u).map fun k => Ins.op2 .add w (.m (chunk es w py ix k)) (k + d)) ++
  (List.range u).map fun k => Ins.st w (k + d) (chunk es w .DI ix k)))

def axpy32 (args mid : List Ins) (py : Reg) : List Line :=
  seg (args ++ [.cmpQ .BX 0]) ++ .jz .axpy_end ::
  (seg (mid ++ [.movQ py .CX, .andQ 15 .CX]) ++ .jz .axpy_no_trim ::
  (seg [.xorQ 15 .CX, .incQ .CX, .shrQ 2 .CX] ++ .label .axpy_align ::
  (seg (axBody 4 .s (some (.AX, 4)) 1 2 py ++ [.incQ .AX, .decQ .BX]) ++ .jz .axpy_end ::
    .loop .axpy_align :: .label .axpy_no_trim ::
  (seg [.movV 0 1, .movQ .BX .CX, .andQ 15 .BX, .shrQ 4 .CX] ++ .jz .axpy_tail4_start ::
    .label .axpy_loop ::
  (seg (axBody 4 .x (some (.AX, 4)) 4 2 py ++ [.addQ 16 .AX]) ++ .loop .axpy_loop ::
  (seg [.cmpQ .BX 0] ++ .jz .axpy_end :: .label .axpy_tail4_start ::
  (seg [.movQ .BX .CX, .shrQ 2 .CX] ++ .jz .axpy_tail_start :: .label .axpy_tail4 ::
  (seg (axBody 4 .x (some (.AX, 4)) 1 2 py ++ [.addQ 4 .AX]) ++ .loop .axpy_tail4 ::
    .label .axpy_tail_start ::
  (seg [.movQ .BX .CX, .andQ 3 .CX] ++ .jz .axpy_end :: .label .axpy_tail ::
  (seg (axBody 4 .s (some (.AX, 4)) 1 1 py ++ [.incQ .AX]) ++ .loop .axpy_tail ::
    [.label .axpy_end, .ret]))))))))))

/-- `pre` and `late` are the two places of the copy of alpha. -/
def axpy64 (args mid late : List Ins) (py : Reg) : List Line :=
  seg (args ++ [.cmpQ .CX 0]) ++ .jz .end_ ::
  (seg (mid ++ [.movQ py .BX, .andQ 15 .BX]) ++ .jz .no_trim ::
  (seg (axBody 8 .s none 1 2 py ++ [.incQ .AX, .decQ .CX]) ++ .jz .end_ :: .label .no_trim ::
  (seg [.movQ .CX .BX, .andQ 7 .BX, .shrQ 3 .CX] ++ .jz .tail_start ::
  (seg late ++ .label .loop ::
  (seg (axBody 8 .x (some (.AX, 8)) 4 2 py ++ [.addQ 8 .AX]) ++ .i (.decQ .CX) :: .jnz .loop ::
  (seg [.cmpQ .BX 0] ++ .jz .end_ :: .label .tail_start ::
  (seg [.movQ .BX .CX, .shrQ 1 .CX] ++ .jz .tail_one :: .label .tail_two ::
  (seg (axBody 8 .x (some (.AX, 8)) 1 2 py ++ [.addQ 2 .AX]) ++ .i (.decQ .CX) :: .jnz .tail_two ::
  (seg [.andQ 1 .BX] ++ .jz .end_ :: .label .tail_one ::
  (seg (axBody 8 .s (some (.AX, 8)) 1 2 py) ++ [.label .end_, .ret]))))))))))

/-! ### Correctness -/

/-- What the routine may touch, and the condition on overlaps. -/
structure AxPre (E : Env R) (x y dst n : Nat) : Prop where
  es : 0 < E.es
  rdx : ∀ i, i < n → E.rd (x + E.es * i) = true
  rdy : ∀ i, i < n → E.rd (y + E.es * i) = true
  wr : ∀ i, i < n → E.wr (dst + E.es * i) = true
  ovx : SameOrApart E.es n x dst
  ovy : SameOrApart E.es n y dst

/-- The element to be stored. -/
def axT (E : Env R) (m0 : Nat → R) (a : R) (x y j : Nat) : R :=
  E.alu.op .add (E.alu.op .mul (m0 (x + E.es * j)) a) (m0 (y + E.es * j))

/-- `i` elements are done. -/
structure AxInv (E : Env R) (py : Reg) (m0 : Nat → R) (a : R) (x y dst n i : Nat) (s : St R) :
    Prop where
  le : i ≤ n
  si : s.r .SI = x
  di : s.r .DI = dst
  py : s.r py = y
  ax : s.r .AX = i
  v0 : ∀ l, l < 16 / E.es → s.v 0 l = a
  mem : Done E.es dst (axT E m0 a x y) m0 i s.mem

section
variable {E : Env R} {w : W} {py : Reg} {m0 : Nat → R} {a : R} {x y dst n : Nat}

theorem ax_body (hp : AxPre E x y dst n) {ix : Option (Reg × Nat)} {u d i : Nat} {s : St R}
    (hx : E.lanes w ≤ 16 / E.es) (h : AxInv E py m0 a x y dst n i s) (hn : i + u * E.lanes w ≤ n)
    (hix : ix = some (.AX, E.es) ∨ (ix = none ∧ i = 0)) (hd : 0 < d)
    (hv1 : ∀ k, k < u → k % 2 = 1 → 1 < d ∧ ∀ l, l < E.lanes w → s.v 1 l = a)
    (hal : w = .x → (y + E.es * i) % 16 = 0 ∧ 16 ∣ E.es * E.lanes w) :
    ∃ t, execs E (axBody E.es w ix u d py) s = some t ∧ t.r = s.r ∧ t.frame = s.frame ∧
      (∀ q, q < d → t.v q = s.v q) ∧
      Done E.es dst (axT E m0 a x y) m0 (i + u * E.lanes w) t.mem := by
  have key : ∀ x j, x + E.es * i + E.es * j = x + E.es * (i + j) := fun x j => by ring
  have haddr : ∀ b, s.addr ⟨b, ix, 0⟩ = s.r b + E.es * i := by
    intro b
    rcases hix with rfl | ⟨rfl, rfl⟩
    · simp [St.addr, h.ax]
    · simp [St.addr]
  obtain ⟨b, hb, br, bm, bf, bv, bo⟩ := loads (E := E) (w := w) (base := .SI) (ix := ix) (d := d)
    (u := u) (s := s) (p := x + E.es * i) hx (by rw [haddr, h.si]) (by
      intro j hj; rw [key]; exact hp.rdx _ (by omega))
  have hg : ∀ k, k < u → k % 2 < d := by
    intro k hk
    rcases Nat.mod_two_eq_zero_or_one k with h0 | h0
    · omega
    · have := (hv1 k hk h0).1; omega
  obtain ⟨c, hc, cr, cm, cf, cv, co⟩ := opsV (E := E) (w := w) (o := .mul) (g := fun k => k % 2)
    (d := d) (u := u) (s := b) hg
  obtain ⟨e, he, er, em, ef, ev, eo⟩ := opsM (E := E) (w := w) (o := .add) (base := py) (ix := ix)
    (d := d) (u := u) (s := c) (p := y + E.es * i)
    ((addr_congr (show c.r = s.r by rw [cr, br]) _).trans (by rw [haddr, h.py]))
    (by intro j hj; rw [key]; exact hp.rdy _ (by omega)) hal
  obtain ⟨f, hf, fr, fv, ff, f1, f2⟩ := stores (E := E) (w := w) (base := .DI) (ix := ix)
    (d := d) (u := u) (s := e) (p := dst + E.es * i) hp.es
    ((addr_congr (show e.r = s.r by rw [er, cr, br]) _).trans (by rw [haddr, h.di]))
    (by intro j hj; rw [key]; exact hp.wr _ (by omega))
  refine ⟨f, ?_, by rw [fr, er, cr, br], by rw [ff, ef, cf, bf], ?_, ?_⟩
  · rw [axBody, execs_append hb, execs_append hc, execs_append he, hf]
  · intro q hq
    rw [fv, eo q (.inl hq), co q (.inl hq), bo q (.inl hq)]
  · refine Done.write hp.es h.mem ?_ ?_
    · intro j hj
      obtain ⟨h1, h2, h3⟩ := index_split hj
      have e1 := f1 _ h1 _ h2
      rw [← h3] at e1
      have e2 := bv _ h1 _ h2
      rw [← h3, key] at e2
      have e3 : b.v (j / E.lanes w % 2) (j % E.lanes w) = a := by
        rw [bo _ (.inl (hg _ h1))]
        rcases Nat.mod_two_eq_zero_or_one (j / E.lanes w) with h0 | h0
        · rw [h0]; exact h.v0 _ (by omega)
        · rw [h0]; exact (hv1 _ h1 h0).2 _ h2
      rw [e1, ev _ h1 _ h2, ← h3, cv _ h1 _ h2, e2, e3, cm, bm, key, axT,
        h.mem.read hp.es hp.ovx h.le (by omega) (by omega),
        h.mem.read hp.es hp.ovy h.le (by omega) (by omega)]
    · intro q hq
      rw [f2 q hq, em, cm, bm]

theorem AxInv.keep' {i : Nat} {s t : St R} (h : AxInv E py m0 a x y dst n i s)
    (h1 : t.r .SI = s.r .SI) (h2 : t.r .DI = s.r .DI) (h3 : t.r py = s.r py)
    (h4 : t.r .AX = s.r .AX) (h5 : t.v 0 = s.v 0) (h6 : t.mem = s.mem) :
    AxInv E py m0 a x y dst n i t :=
  ⟨h.le, by rw [h1, h.si], by rw [h2, h.di], by rw [h3, h.py], by rw [h4, h.ax],
    by rw [h5]; exact h.v0, by rw [h6]; exact h.mem⟩

theorem and_low (b k : Nat) : b &&& (2 ^ k - 1) = b % 2 ^ k := Nat.and_two_pow_sub_one_eq_mod b k

end

section ax32
variable {E : Env R} {py : Reg} {m0 : Nat → R} {a : R} {x y dst n : Nat}

theorem axpy32_loops (hp : AxPre E x y dst n) (hes : E.es = 4) (hpy : py = .DI ∨ py = .DX)
    {args mid : List Ins} (code : List Line) (hcode : code = axpy32 args mid py) :
    (∀ s, AxInv E py m0 a x y dst n n s → Ends E code (after .axpy_end code) s fun s' =>
      Done E.es dst (axT E m0 a x y) m0 n s'.mem) ∧
    (∀ i s, AxInv E py m0 a x y dst n i s → s.r .BX = n - i → (y + E.es * i) % 16 = 0 →
      Ends E code (after .axpy_no_trim code) s fun s' =>
        Done E.es dst (axT E m0 a x y) m0 n s'.mem) ∧
    (∀ k i s, AxInv E py m0 a x y dst n i s → s.r .BX = n - i → i < n → s.r .CX = k + 1 →
      (y + 4 * (i + (k + 1))) % 16 = 0 →
      Ends E code (after .axpy_align code) s fun s' =>
        Done E.es dst (axT E m0 a x y) m0 n s'.mem) := by
  have lx : E.lanes .x = 4 := by simp [Env.lanes, lanesOf, hes]
  have ls : E.lanes .s = 1 := rfl
  have hd16 : 16 ∣ E.es * E.lanes .x := by simp [hes, lx]
  have py1 : py ≠ .AX := by rcases hpy with rfl | rfl <;> decide
  have py2 : py ≠ .BX := by rcases hpy with rfl | rfl <;> decide
  have py3 : py ≠ .CX := by rcases hpy with rfl | rfl <;> decide
  have h48 : (16 : Nat) / E.es = 4 := by rw [hes]
  -- the end
  have hend : ∀ s, AxInv E py m0 a x y dst n n s → Ends E code (after .axpy_end code) s fun s' =>
      Done E.es dst (axT E m0 a x y) m0 n s'.mem := by
    intro s h
    rw [hcode]
    simp only [axpy32, after, after_seg, reduceCtorEq, if_false, if_true]
    exact .ret h.mem
  -- scalar tail
  have htail : ∀ k s, (∃ i, i + (k + 1) = n ∧ AxInv E py m0 a x y dst n i s) → s.r .CX = k + 1 →
      Ends E code (after .axpy_tail code) s fun s' =>
        Done E.es dst (axT E m0 a x y) m0 n s'.mem := by
    refine Ends.loop (Inv := fun k s => ∃ i, i + k = n ∧ AxInv E py m0 a x y dst n i s)
      (body := axBody 4 .s (some (.AX, 4)) 1 1 py ++ [.incQ .AX]) (rest := [.label .axpy_end, .ret])
      (by rw [hcode]; simp only [axpy32, after, after_seg, reduceCtorEq, if_false, if_true]) ?_ ?_ ?_
    · rintro k s c ⟨i, hi, h⟩
      exact ⟨i, hi, h.keep' (by simp [St.setR]) (by simp [St.setR]) (by simp [St.setR, py3])
        (by simp [St.setR]) rfl rfl⟩
    · rintro k s ⟨i, hi, h⟩
      obtain ⟨t, ht, tr, -, tv, tm⟩ := ax_body (w := .s) (u := 1) (d := 1) (ix := some (.AX, E.es)) hp
        (by rw [ls, h48]; omega) h (by rw [ls]; omega) (.inl rfl) (by omega)
        (by intro k hk h1; omega) (by simp)
      rw [hes] at ht
      refine ⟨_, (execs_append ht).trans rfl, by simp [St.setR, tr], i + 1, by omega, by omega, ?_, ?_,
        ?_, ?_, ?_, ?_⟩
      · simp [St.setR, tr, h.si]
      · simp [St.setR, tr, h.di]
      · simp [St.setR, tr, h.py, py1]
      · simp [St.setR, tr, h.ax]
      · intro l hl; simp only [St.setR, tv 0 (by omega)]; exact h.v0 l hl
      · exact tm
    · rintro s ⟨i, hi, h⟩
      rw [Nat.add_zero] at hi
      subst hi
      have := hend s h
      rw [hcode] at this ⊢
      simp only [axpy32, after, after_seg, reduceCtorEq, if_false, if_true] at this ⊢
      exact this.label
  have htailS : ∀ i s, AxInv E py m0 a x y dst n i s → i + s.r .BX % 4 = n →
      Ends E code (after .axpy_tail_start code) s fun s' =>
        Done E.es dst (axT E m0 a x y) m0 n s'.mem := by
    intro i s h hb
    have hA : after .axpy_tail_start code = seg [.movQ .BX .CX, .andQ 3 .CX] ++ .jz .axpy_end ::
        .label .axpy_tail :: after .axpy_tail code := by
      rw [hcode]; simp only [axpy32, after, after_seg, reduceCtorEq, if_false, if_true]
    rw [hA]
    refine Ends.seg (s1 := { (s.setR .CX (s.r .BX)).setR .CX (s.r .BX % 4) with
        zf := s.r .BX % 4 == 0, lt := false }) ?_ ?_
    · have := and_low (s.r .BX) 2
      simp only [execs, exec, Option.bind_some, St.setR, if_true]
      norm_num at this
      rw [this]
    · have hi : ∀ z l c d, AxInv E py m0 a x y dst n i
          { (s.setR .CX c).setR .CX d with zf := z, lt := l } := fun z l c d =>
        h.keep' (by simp [St.setR]) (by simp [St.setR]) (by simp [St.setR, py3])
          (by simp [St.setR]) rfl rfl
      refine Ends.jz ?_ ?_
      · intro hz
        simp only [beq_iff_eq] at hz
        have : i = n := by omega
        subst this
        exact hend _ (hi _ _ _ _)
      · intro hz
        simp only [beq_eq_false_iff_ne, ne_eq] at hz
        obtain ⟨k, hk⟩ : ∃ k, s.r .BX % 4 = k + 1 := ⟨s.r .BX % 4 - 1, by omega⟩
        exact (htail k _ ⟨i, by omega, hi _ _ _ _⟩ (by simp [St.setR, hk])).label
  -- one register at a time
  have htail4 : ∀ k s, (∃ i, i + 4 * (k + 1) + s.r .BX % 4 = n ∧ (y + E.es * i) % 16 = 0 ∧
      AxInv E py m0 a x y dst n i s) → s.r .CX = k + 1 →
      Ends E code (after .axpy_tail4 code) s fun s' =>
        Done E.es dst (axT E m0 a x y) m0 n s'.mem := by
    refine Ends.loop (Inv := fun k s => ∃ i, i + 4 * k + s.r .BX % 4 = n ∧ (y + E.es * i) % 16 = 0 ∧
        AxInv E py m0 a x y dst n i s)
      (body := axBody 4 .x (some (.AX, 4)) 1 2 py ++ [.addQ 4 .AX])
      (rest := .label .axpy_tail_start :: after .axpy_tail_start code)
      (by rw [hcode]; simp only [axpy32, after, after_seg, reduceCtorEq, if_false, if_true]) ?_ ?_ ?_
    · rintro k s c ⟨i, hi, hal, h⟩
      exact ⟨i, by simpa [St.setR] using hi, hal, h.keep' (by simp [St.setR]) (by simp [St.setR])
        (by simp [St.setR, py3]) (by simp [St.setR]) rfl rfl⟩
    · rintro k s ⟨i, hi, hal, h⟩
      obtain ⟨t, ht, tr, -, tv, tm⟩ := ax_body (w := .x) (u := 1) (d := 2) (ix := some (.AX, E.es)) hp
        (by rw [lx, h48]) h (by rw [lx]; omega) (.inl rfl) (by omega)
        (by intro k hk h1; omega) (fun _ => ⟨hal, hd16⟩)
      rw [hes] at ht
      rw [lx] at tm
      refine ⟨_, (execs_append ht).trans rfl, by simp [St.setR, tr], i + 4, ?_, ?_, ?_, ?_, ?_, ?_,
        ?_, ?_, ?_⟩
      · simp [St.setR, tr]; omega
      · rw [hes] at hal ⊢; omega
      · omega
      · simp [St.setR, tr, h.si]
      · simp [St.setR, tr, h.di]
      · simp [St.setR, tr, h.py, py1]
      · simp [St.setR, tr, h.ax]
      · intro l hl; simp only [St.setR, tv 0 (by omega)]; exact h.v0 l hl
      · exact tm
    · rintro s ⟨i, hi, hal, h⟩
      exact (htailS i s h (by omega)).label
  have htail4S : ∀ i s, AxInv E py m0 a x y dst n i s → i + s.r .BX = n → (y + E.es * i) % 16 = 0 →
      Ends E code (after .axpy_tail4_start code) s fun s' =>
        Done E.es dst (axT E m0 a x y) m0 n s'.mem := by
    intro i s h hb hal
    have hA : after .axpy_tail4_start code = seg [.movQ .BX .CX, .shrQ 2 .CX] ++ .jz .axpy_tail_start ::
        .label .axpy_tail4 :: after .axpy_tail4 code := by
      rw [hcode]; simp only [axpy32, after, after_seg, reduceCtorEq, if_false, if_true]
    rw [hA]
    refine Ends.seg (s1 := { (s.setR .CX (s.r .BX)).setR .CX (s.r .BX / 4) with
        zf := s.r .BX / 4 == 0, lt := false }) ?_ ?_
    · have : s.r .BX >>> 2 = s.r .BX / 4 := Nat.shiftRight_eq_div_pow _ _
      simp only [execs, exec, Option.bind_some, St.setR, if_true]
      rw [this]
    · have hi : ∀ z l c d, AxInv E py m0 a x y dst n i
          { (s.setR .CX c).setR .CX d with zf := z, lt := l } := fun z l c d =>
        h.keep' (by simp [St.setR]) (by simp [St.setR]) (by simp [St.setR, py3])
          (by simp [St.setR]) rfl rfl
      refine Ends.jz ?_ ?_
      · intro hz
        simp only [beq_iff_eq] at hz
        exact htailS i _ (hi _ _ _ _) (by simp [St.setR]; omega)
      · intro hz
        simp only [beq_eq_false_iff_ne, ne_eq] at hz
        obtain ⟨k, hk⟩ : ∃ k, s.r .BX / 4 = k + 1 := ⟨s.r .BX / 4 - 1, by omega⟩
        exact (htail4 k _ ⟨i, by simp [St.setR]; omega, hal, hi _ _ _ _⟩ (by simp [St.setR, hk])).label
  -- four registers at a time
  have hloop : ∀ k s, (∃ i, i + 16 * (k + 1) + s.r .BX = n ∧ (y + E.es * i) % 16 = 0 ∧
      (∀ l, l < 4 → s.v 1 l = a) ∧ AxInv E py m0 a x y dst n i s) → s.r .CX = k + 1 →
      Ends E code (after .axpy_loop code) s fun s' =>
        Done E.es dst (axT E m0 a x y) m0 n s'.mem := by
    refine Ends.loop (Inv := fun k s => ∃ i, i + 16 * k + s.r .BX = n ∧ (y + E.es * i) % 16 = 0 ∧
        (∀ l, l < 4 → s.v 1 l = a) ∧ AxInv E py m0 a x y dst n i s)
      (body := axBody 4 .x (some (.AX, 4)) 4 2 py ++ [.addQ 16 .AX])
      (rest := seg [.cmpQ .BX 0] ++ .jz .axpy_end :: .label .axpy_tail4_start ::
        after .axpy_tail4_start code)
      (by rw [hcode]; simp only [axpy32, after, after_seg, reduceCtorEq, if_false, if_true]) ?_ ?_ ?_
    · rintro k s c ⟨i, hi, hal, hv, h⟩
      exact ⟨i, by simpa [St.setR] using hi, hal, hv, h.keep' (by simp [St.setR]) (by simp [St.setR])
        (by simp [St.setR, py3]) (by simp [St.setR]) rfl rfl⟩
    · rintro k s ⟨i, hi, hal, hv, h⟩
      obtain ⟨t, ht, tr, -, tv, tm⟩ := ax_body (w := .x) (u := 4) (d := 2) (ix := some (.AX, E.es)) hp
        (by rw [lx, h48]) h (by rw [lx]; omega) (.inl rfl) (by omega)
        (by intro k hk h1; exact ⟨by omega, by rw [lx]; exact hv⟩) (fun _ => ⟨hal, hd16⟩)
      rw [hes] at ht
      rw [lx] at tm
      refine ⟨_, (execs_append ht).trans rfl, by simp [St.setR, tr], i + 16, ?_, ?_, ?_, ?_, ?_, ?_,
        ?_, ?_, ?_, ?_⟩
      · simp [St.setR, tr]; omega
      · rw [hes] at hal ⊢; omega
      · intro l hl; simp only [St.setR, tv 1 (by omega)]; exact hv l hl
      · omega
      · simp [St.setR, tr, h.si]
      · simp [St.setR, tr, h.di]
      · simp [St.setR, tr, h.py, py1]
      · simp [St.setR, tr, h.ax]
      · intro l hl; simp only [St.setR, tv 0 (by omega)]; exact h.v0 l hl
      · exact tm
    · rintro s ⟨i, hi, hal, -, h⟩
      have hi' : ∀ z l, AxInv E py m0 a x y dst n i { s with zf := z, lt := l } := fun z l =>
        h.keep' rfl rfl rfl rfl rfl rfl
      refine Ends.seg (s1 := { s with zf := s.r .BX == 0, lt := decide (s.r .BX < 0) }) rfl
        (Ends.jz ?_ ?_)
      · intro hz
        simp only [beq_iff_eq] at hz
        have : i = n := by omega
        subst this
        exact hend _ (hi' _ _)
      · intro _
        exact (htail4S i _ (hi' _ _) (by simpa using hi) hal).label
  have hnt : ∀ i s, AxInv E py m0 a x y dst n i s → s.r .BX = n - i → (y + E.es * i) % 16 = 0 →
      Ends E code (after .axpy_no_trim code) s fun s' =>
        Done E.es dst (axT E m0 a x y) m0 n s'.mem := by
    intro i s h hb hal
    have hA : after .axpy_no_trim code = seg [.movV 0 1, .movQ .BX .CX, .andQ 15 .BX, .shrQ 4 .CX] ++
        .jz .axpy_tail4_start :: .label .axpy_loop :: after .axpy_loop code := by
      rw [hcode]; simp only [axpy32, after, after_seg, reduceCtorEq, if_false, if_true]
    rw [hA]
    obtain ⟨t, ht, t1, t2, t3, t4, t5, t6, t7, t8⟩ : ∃ t : St R,
        execs E [.movV 0 1, .movQ .BX .CX, .andQ 15 .BX, .shrQ 4 .CX] s = some t ∧
        (∀ q, q ≠ .BX → q ≠ .CX → t.r q = s.r q) ∧ t.r .BX = s.r .BX % 16 ∧ t.r .CX = s.r .BX / 16 ∧
        t.v 0 = s.v 0 ∧ (∀ l, l < 4 → t.v 1 l = s.v 0 l) ∧ t.mem = s.mem ∧ t.frame = s.frame ∧
        t.zf = (s.r .BX / 16 == 0) := by
      refine ⟨_, rfl, ?_, ?_, ?_, ?_, ?_, rfl, rfl, ?_⟩
      · intro q h1 h2; simp [St.setR, St.setV, h1, h2]
      · simp [St.setR, St.setV, and15]
      · simp [St.setR, St.setV, Nat.shiftRight_eq_div_pow]
      · simp [St.setR, St.setV]
      · intro l hl; simp [St.setR, St.setV, keep, h48, hl]
      · simp [St.setR, St.setV, Nat.shiftRight_eq_div_pow]
    have hle := h.le
    have hi : AxInv E py m0 a x y dst n i t := h.keep' (t1 _ (by decide) (by decide))
      (t1 _ (by decide) (by decide)) (t1 _ py2 py3) (t1 _ (by decide) (by decide)) t4 t6
    refine Ends.seg ht (Ends.jz ?_ ?_)
    · intro hz
      simp only [t8, beq_iff_eq] at hz
      exact htail4S i t hi (by rw [t2]; omega) hal
    · intro hz
      simp only [t8, beq_eq_false_iff_ne, ne_eq] at hz
      obtain ⟨k, hk⟩ : ∃ k, s.r .BX / 16 = k + 1 := ⟨s.r .BX / 16 - 1, by omega⟩
      exact (hloop k t ⟨i, by rw [t2]; omega, hal, fun l hl => (t5 l hl).trans (h.v0 l (by omega)), hi⟩
        (by rw [t3, hk])).label
  refine ⟨hend, hnt, ?_⟩
  -- alignment
  have hA : after .axpy_align code = seg (axBody 4 .s (some (.AX, 4)) 1 2 py ++
      [.incQ .AX, .decQ .BX]) ++ .jz .axpy_end :: .loop .axpy_align :: .label .axpy_no_trim ::
      after .axpy_no_trim code := by
    rw [hcode]; simp only [axpy32, after, after_seg, reduceCtorEq, if_false, if_true]
  have one : ∀ i s, AxInv E py m0 a x y dst n i s → s.r .BX = n - i → i < n → ∃ t,
      execs E (axBody 4 .s (some (.AX, 4)) 1 2 py ++ [.incQ .AX, .decQ .BX]) s = some t ∧
      AxInv E py m0 a x y dst n (i + 1) t ∧ t.r .BX = n - (i + 1) ∧ t.r .CX = s.r .CX ∧
      t.zf = (n - (i + 1) == 0) := by
    intro i s h hb hi
    obtain ⟨t, ht, tr, -, tv, tm⟩ := ax_body (w := .s) (u := 1) (d := 2) (ix := some (.AX, E.es)) hp
      (by rw [ls, h48]; omega) h (by rw [ls]; omega) (.inl rfl) (by omega)
      (by intro k hk h1; omega) (by simp)
    rw [hes] at ht
    have he : execs E [.incQ .AX, .decQ .BX] t = some
        { (t.setR .AX (t.r .AX + 1)).setR .BX (n - i - 1) with zf := n - i - 1 == 0, lt := false } := by
      have : 1 ≤ t.r .BX := by rw [tr, hb]; omega
      have h2 : t.r .BX = n - i := by rw [tr, hb]
      simp [execs, exec, St.setR, h2]
      omega
    refine ⟨_, (execs_append ht).trans he, ⟨by omega, ?_, ?_, ?_, ?_, ?_, ?_⟩, ?_, ?_, ?_⟩
    · simp [St.setR, tr, h.si]
    · simp [St.setR, tr, h.di]
    · simp [St.setR, tr, h.py, py1, py2]
    · simp [St.setR, tr, h.ax]
    · intro l hl; simp only [St.setR, tv 0 (by omega)]; exact h.v0 l hl
    · exact tm
    · simp [St.setR]; omega
    · simp [St.setR, tr]
    · simp [Nat.sub_sub]
  intro k
  induction k with
  | zero =>
    intro i s h hb hi hc hal
    obtain ⟨t, ht, h1, h2, h3, h4⟩ := one i s h hb hi
    rw [hA]
    refine Ends.seg ht (Ends.jz ?_ ?_)
    · intro hz
      rw [h4, beq_iff_eq] at hz
      have : i + 1 = n := by omega
      exact hend _ (this ▸ h1)
    · intro hz
      have h1' : AxInv E py m0 a x y dst n (i + 1) (t.setR .CX 0) := h1.keep' (by simp [St.setR])
        (by simp [St.setR]) (by simp [St.setR, py3]) (by simp [St.setR]) rfl rfl
      obtain ⟨s', hs', hP⟩ := hnt (i + 1) _ h1' (by simpa [St.setR] using h2) (by rw [hes]; simpa using hal)
      exact ⟨s', .loopF (by omega) (.label hs'), hP⟩
  | succ k ih =>
    intro i s h hb hi hc hal
    obtain ⟨t, ht, h1, h2, h3, h4⟩ := one i s h hb hi
    rw [hA]
    refine Ends.seg ht (Ends.jz ?_ ?_)
    · intro hz
      rw [h4, beq_iff_eq] at hz
      have : i + 1 = n := by omega
      exact hend _ (this ▸ h1)
    · intro hz
      rw [h4, beq_eq_false_iff_ne] at hz
      have h1' : AxInv E py m0 a x y dst n (i + 1) (t.setR .CX (t.r .CX - 1)) := h1.keep'
        (by simp [St.setR]) (by simp [St.setR]) (by simp [St.setR, py3]) (by simp [St.setR]) rfl rfl
      obtain ⟨s', hs', hP⟩ := ih (i + 1) _ h1' (by simpa [St.setR] using h2) (by omega)
        (by simp [St.setR, h3, hc]) (by rw [show i + 1 + (k + 1) = i + (k + 1 + 1) by omega]; exact hal)
      exact ⟨s', .loopT (by omega) hs', hP⟩

/-- The whole routine. -/
theorem axpy32_ends (hp : AxPre E x y dst n) (hes : E.es = 4) (hpy : py = .DI ∨ py = .DX)
    (hal : y % 4 = 0) {args mid : List Ins} {s t : St R} (ht : execs E args s = some t)
    (tsi : t.r .SI = x) (tdi : t.r .DI = dst) (tpy : t.r py = y) (tbx : t.r .BX = n)
    (tm : t.mem = m0)
    (hmid : ∀ t : St R, ∃ t', execs E mid t = some t' ∧ (∀ q, q ≠ .AX → t'.r q = t.r q) ∧
      t'.r .AX = 0 ∧ t'.mem = t.mem ∧ ∀ l, l < 4 → t'.v 0 l = a) :
    Ends E (axpy32 args mid py) (axpy32 args mid py) s fun s' =>
      Done E.es dst (axT E m0 a x y) m0 n s'.mem := by
  obtain ⟨hend, hnt, halign⟩ := axpy32_loops (m0 := m0) (a := a) hp hes hpy _
    (rfl : axpy32 args mid py = axpy32 args mid py)
  have py1 : py ≠ .AX := by rcases hpy with rfl | rfl <;> decide
  have py2 : py ≠ .BX := by rcases hpy with rfl | rfl <;> decide
  have py3 : py ≠ .CX := by rcases hpy with rfl | rfl <;> decide
  have hA : axpy32 args mid py = seg (args ++ [.cmpQ .BX 0]) ++ .jz .axpy_end ::
      (seg (mid ++ [.movQ py .CX, .andQ 15 .CX]) ++ .jz .axpy_no_trim ::
      (seg [.xorQ 15 .CX, .incQ .CX, .shrQ 2 .CX] ++ .label .axpy_align ::
        after .axpy_align (axpy32 args mid py))) := by
    simp only [axpy32, after, after_seg, reduceCtorEq, if_false, if_true]
  generalize hc : axpy32 args mid py = code at *
  conv => arg 3; rw [hA]
  refine Ends.seg ((execs_append ht).trans rfl) (Ends.jz ?_ ?_)
  · intro hz
    simp only [tbx, beq_iff_eq] at hz
    rw [← hc]
    simp only [axpy32, after, after_seg, reduceCtorEq, if_false, if_true]
    refine .ret ?_
    simp only [hz, tm]
    exact .zero
  · intro hz
    simp only [tbx, beq_eq_false_iff_ne, ne_eq] at hz
    obtain ⟨u, hu, ur, ua, um, uv⟩ := hmid { t with zf := t.r .BX == 0, lt := decide (t.r .BX < 0) }
    refine Ends.seg ((execs_append hu).trans rfl) ?_
    have hy : u.r py = y := by rw [ur _ py1]; exact tpy
    have hinv : ∀ v : St R, v.r .SI = u.r .SI → v.r .DI = u.r .DI → v.r py = u.r py →
        v.r .AX = u.r .AX → v.v = u.v → v.mem = u.mem → AxInv E py m0 a x y dst n 0 v := by
      intro v h1 h2 h3 h4 h5 h6
      refine ⟨by omega, ?_, ?_, by rw [h3, hy], by rw [h4, ua], ?_, ?_⟩
      · rw [h1, ur _ (by decide)]; exact tsi
      · rw [h2, ur _ (by decide)]; exact tdi
      · rw [h5, hes]; exact uv
      · rw [h6, um]; simp only [tm]; exact .zero
    have hbx : u.r .BX = n := by rw [ur _ (by decide)]; exact tbx
    have h15 : ∀ b, 15 &&& b = b % 16 := fun b => by rw [Nat.and_comm]; exact and15 b
    refine Ends.jz ?_ ?_
    · intro hz0
      simp [St.setR, hy, and15] at hz0
      refine hnt 0 _ (hinv _ ?_ ?_ ?_ ?_ rfl rfl) ?_ (by simpa using hz0)
      · simp [St.setR]
      · simp [St.setR]
      · simp [St.setR, py3]
      · simp [St.setR]
      · simp [St.setR, hbx]
    · intro hz0
      simp [St.setR, hy, and15] at hz0
      refine Ends.seg rfl (Ends.label ?_)
      obtain ⟨k, hk⟩ : ∃ k, (16 - y % 16) / 4 = k + 1 := ⟨(16 - y % 16) / 4 - 1, by omega⟩
      have hx : ((y % 16) ^^^ 15) + 1 = 16 - y % 16 := by
        have : ∀ b : Fin 16, (b.val ^^^ 15) + 1 = 16 - b.val := by decide
        exact this ⟨y % 16, Nat.mod_lt _ (by omega)⟩
      refine halign k 0 _ (hinv _ ?_ ?_ ?_ ?_ rfl rfl) ?_ (by omega) ?_ (by omega)
      · simp [St.setR]
      · simp [St.setR]
      · simp [St.setR, py3]
      · simp [St.setR]
      · simp [St.setR, hbx]
      · simp [St.setR, hy, and15, hx, Nat.shiftRight_eq_div_pow, hk]

end ax32

section ax64
variable {E : Env R} {py : Reg} {m0 : Nat → R} {a : R} {x y dst n : Nat}

/-- The whole routine of 64 bits; `late` or `mid` copies alpha to register 1. -/
theorem axpy64_ends (hp : AxPre E x y dst n) (hes : E.es = 8) (hpy : py = .DI ∨ py = .DX)
    (hal : y % 8 = 0) {args mid late : List Ins} {s t : St R} (ht : execs E args s = some t)
    (tsi : t.r .SI = x) (tdi : t.r .DI = dst) (tpy : t.r py = y) (tcx : t.r .CX = n)
    (tm : t.mem = m0) (Q : St R → Prop) (hQ : ∀ u v : St R, u.v 1 = v.v 1 → Q u → Q v)
    (hmid : ∀ t : St R, ∃ t', execs E mid t = some t' ∧ (∀ q, q ≠ .AX → t'.r q = t.r q) ∧
      t'.r .AX = 0 ∧ t'.mem = t.mem ∧ (∀ l, l < 2 → t'.v 0 l = a) ∧ Q t')
    (hlate : ∀ t : St R, Q t → (∀ l, l < 2 → t.v 0 l = a) → ∃ t', execs E late t = some t' ∧
      t'.r = t.r ∧ t'.mem = t.mem ∧ t'.v 0 = t.v 0 ∧ ∀ l, l < 2 → t'.v 1 l = a) :
    Ends E (axpy64 args mid late py) (axpy64 args mid late py) s fun s' =>
      Done E.es dst (axT E m0 a x y) m0 n s'.mem := by
  have lx : E.lanes .x = 2 := by simp [Env.lanes, lanesOf, hes]
  have ls : E.lanes .s = 1 := rfl
  have hd16 : 16 ∣ E.es * E.lanes .x := by simp [hes, lx]
  have py1 : py ≠ .AX := by rcases hpy with rfl | rfl <;> decide
  have py2 : py ≠ .BX := by rcases hpy with rfl | rfl <;> decide
  have py3 : py ≠ .CX := by rcases hpy with rfl | rfl <;> decide
  have h48 : (16 : Nat) / E.es = 2 := by rw [hes]
  obtain ⟨code, hcode⟩ : ∃ code, code = axpy64 args mid late py := ⟨_, rfl⟩
  rw [← hcode]
  have hend : ∀ s, Done E.es dst (axT E m0 a x y) m0 n s.mem → Ends E code (after .end_ code) s
      fun s' => Done E.es dst (axT E m0 a x y) m0 n s'.mem := by
    intro s h
    rw [hcode]
    simp only [axpy64, after, after_seg, reduceCtorEq, if_false, if_true]
    exact .ret h
  -- the last element
  have hone : ∀ i s, AxInv E py m0 a x y dst n i s → i + 1 = n →
      Ends E code (after .tail_one code) s fun s' =>
        Done E.es dst (axT E m0 a x y) m0 n s'.mem := by
    intro i s h hi
    have hA : after .tail_one code = seg (axBody 8 .s (some (.AX, 8)) 1 2 py) ++
        .label .end_ :: after .end_ code := by
      rw [hcode]; simp only [axpy64, after, after_seg, reduceCtorEq, if_false, if_true]
    obtain ⟨t, ht, tr, -, tv, tm⟩ := ax_body (w := .s) (u := 1) (d := 2) (ix := some (.AX, E.es)) hp
      (by rw [ls, h48]; omega) h (by rw [ls]; omega) (.inl rfl) (by omega)
      (by intro k hk h1; omega) (by simp)
    rw [hes] at ht
    rw [hA]
    refine Ends.seg ht (hend _ ?_).label
    rw [ls, Nat.one_mul, hi] at tm
    exact tm
  -- one register at a time
  have htwo : ∀ k s, (∃ i, i + 2 * (k + 1) + s.r .BX % 2 = n ∧ (y + E.es * i) % 16 = 0 ∧
      AxInv E py m0 a x y dst n i s) → s.r .CX = k + 1 →
      Ends E code (after .tail_two code) s fun s' =>
        Done E.es dst (axT E m0 a x y) m0 n s'.mem := by
    refine Ends.dec (Inv := fun k s => ∃ i, i + 2 * k + s.r .BX % 2 = n ∧ (y + E.es * i) % 16 = 0 ∧
        AxInv E py m0 a x y dst n i s)
      (body := axBody 8 .x (some (.AX, 8)) 1 2 py ++ [.addQ 2 .AX])
      (rest := seg [.andQ 1 .BX] ++ .jz .end_ :: .label .tail_one :: after .tail_one code)
      (by rw [hcode]; simp only [axpy64, after, after_seg, reduceCtorEq, if_false, if_true]) ?_ ?_ ?_
    · rintro k s c z l ⟨i, hi, hal, h⟩
      exact ⟨i, by simpa [St.setR] using hi, hal, h.keep' (by simp [St.setR]) (by simp [St.setR])
        (by simp [St.setR, py3]) (by simp [St.setR]) rfl rfl⟩
    · rintro k s ⟨i, hi, hal, h⟩
      obtain ⟨t, ht, tr, -, tv, tm⟩ := ax_body (w := .x) (u := 1) (d := 2) (ix := some (.AX, E.es)) hp
        (by rw [lx, h48]) h (by rw [lx]; omega) (.inl rfl) (by omega)
        (by intro k hk h1; omega) (fun _ => ⟨hal, hd16⟩)
      rw [hes] at ht
      rw [lx] at tm
      refine ⟨_, (execs_append ht).trans rfl, by simp [St.setR, tr], i + 2, ?_, ?_, ?_, ?_, ?_, ?_,
        ?_, ?_, ?_⟩
      · simp [St.setR, tr]; omega
      · rw [hes] at hal ⊢; omega
      · omega
      · simp [St.setR, tr, h.si]
      · simp [St.setR, tr, h.di]
      · simp [St.setR, tr, h.py, py1]
      · simp [St.setR, tr, h.ax]
      · intro l hl; simp only [St.setR, tv 0 (by omega)]; exact h.v0 l hl
      · exact tm
    · rintro s ⟨i, hi, -, h⟩
      refine Ends.seg (s1 := { s.setR .BX (s.r .BX % 2) with zf := s.r .BX % 2 == 0, lt := false })
        ?_ (Ends.jz ?_ ?_)
      · have := and_low (s.r .BX) 1
        norm_num at this
        simp [execs, exec, this]
      · intro hz
        simp only [beq_iff_eq] at hz
        have : i = n := by omega
        subst this
        exact hend _ h.mem
      · intro hz
        simp only [beq_eq_false_iff_ne, ne_eq] at hz
        refine Ends.label (hone i _ ?_ (by omega))
        refine h.keep' ?_ ?_ ?_ ?_ rfl rfl
        · simp [St.setR]
        · simp [St.setR]
        · simp [St.setR, py2]
        · simp [St.setR]
  have htailS : ∀ i s, AxInv E py m0 a x y dst n i s → i + s.r .BX = n → i < n →
      (y + E.es * i) % 16 = 0 →
      Ends E code (after .tail_start code) s fun s' =>
        Done E.es dst (axT E m0 a x y) m0 n s'.mem := by
    intro i s h hb hlt hal
    have hA : after .tail_start code = seg [.movQ .BX .CX, .shrQ 1 .CX] ++ .jz .tail_one ::
        .label .tail_two :: after .tail_two code := by
      rw [hcode]; simp only [axpy64, after, after_seg, reduceCtorEq, if_false, if_true]
    rw [hA]
    refine Ends.seg (s1 := { (s.setR .CX (s.r .BX)).setR .CX (s.r .BX / 2) with
        zf := s.r .BX / 2 == 0, lt := false }) ?_ ?_
    · have : s.r .BX >>> 1 = s.r .BX / 2 := Nat.shiftRight_eq_div_pow _ _
      simp only [execs, exec, Option.bind_some, St.setR, if_true]
      rw [this]
    · have hi : ∀ z l c d, AxInv E py m0 a x y dst n i
          { (s.setR .CX c).setR .CX d with zf := z, lt := l } := fun z l c d =>
        h.keep' (by simp [St.setR]) (by simp [St.setR]) (by simp [St.setR, py3])
          (by simp [St.setR]) rfl rfl
      refine Ends.jz ?_ ?_
      · intro hz
        simp only [beq_iff_eq] at hz
        exact hone i _ (hi _ _ _ _) (by omega)
      · intro hz
        simp only [beq_eq_false_iff_ne, ne_eq] at hz
        obtain ⟨k, hk⟩ : ∃ k, s.r .BX / 2 = k + 1 := ⟨s.r .BX / 2 - 1, by omega⟩
        exact (htwo k _ ⟨i, by simp [St.setR]; omega, hal, hi _ _ _ _⟩ (by simp [St.setR, hk])).label
  -- four registers at a time
  have hloop : ∀ k s, (∃ i, i + 8 * (k + 1) + s.r .BX = n ∧ (y + E.es * i) % 16 = 0 ∧
      (∀ l, l < 2 → s.v 1 l = a) ∧ AxInv E py m0 a x y dst n i s) → s.r .CX = k + 1 →
      Ends E code (after .loop code) s fun s' =>
        Done E.es dst (axT E m0 a x y) m0 n s'.mem := by
    refine Ends.dec (Inv := fun k s => ∃ i, i + 8 * k + s.r .BX = n ∧ (y + E.es * i) % 16 = 0 ∧
        (∀ l, l < 2 → s.v 1 l = a) ∧ AxInv E py m0 a x y dst n i s)
      (body := axBody 8 .x (some (.AX, 8)) 4 2 py ++ [.addQ 8 .AX])
      (rest := seg [.cmpQ .BX 0] ++ .jz .end_ :: .label .tail_start :: after .tail_start code)
      (by rw [hcode]; simp only [axpy64, after, after_seg, reduceCtorEq, if_false, if_true]) ?_ ?_ ?_
    · rintro k s c z l ⟨i, hi, hal, hv, h⟩
      exact ⟨i, by simpa [St.setR] using hi, hal, hv, h.keep' (by simp [St.setR]) (by simp [St.setR])
        (by simp [St.setR, py3]) (by simp [St.setR]) rfl rfl⟩
    · rintro k s ⟨i, hi, hal, hv, h⟩
      obtain ⟨t, ht, tr, -, tv, tm⟩ := ax_body (w := .x) (u := 4) (d := 2) (ix := some (.AX, E.es)) hp
        (by rw [lx, h48]) h (by rw [lx]; omega) (.inl rfl) (by omega)
        (by intro k hk h1; exact ⟨by omega, by rw [lx]; exact hv⟩) (fun _ => ⟨hal, hd16⟩)
      rw [hes] at ht
      rw [lx] at tm
      refine ⟨_, (execs_append ht).trans rfl, by simp [St.setR, tr], i + 8, ?_, ?_, ?_, ?_, ?_, ?_,
        ?_, ?_, ?_, ?_⟩
      · simp [St.setR, tr]; omega
      · rw [hes] at hal ⊢; omega
      · intro l hl; simp only [St.setR, tv 1 (by omega)]; exact hv l hl
      · omega
      · simp [St.setR, tr, h.si]
      · simp [St.setR, tr, h.di]
      · simp [St.setR, tr, h.py, py1]
      · simp [St.setR, tr, h.ax]
      · intro l hl; simp only [St.setR, tv 0 (by omega)]; exact h.v0 l hl
      · exact tm
    · rintro s ⟨i, hi, hal, -, h⟩
      have hi' : ∀ z l, AxInv E py m0 a x y dst n i { s with zf := z, lt := l } := fun z l =>
        h.keep' rfl rfl rfl rfl rfl rfl
      refine Ends.seg (s1 := { s with zf := s.r .BX == 0, lt := decide (s.r .BX < 0) }) rfl
        (Ends.jz ?_ ?_)
      · intro hz
        simp only [beq_iff_eq] at hz
        have : i = n := by omega
        subst this
        exact hend _ h.mem
      · intro hz
        simp only [beq_eq_false_iff_ne, ne_eq] at hz
        exact (htailS i _ (hi' _ _) (by simpa using hi) (by omega) hal).label
  have hnt : ∀ i s, AxInv E py m0 a x y dst n i s → s.r .CX = n - i → i < n →
      (y + E.es * i) % 16 = 0 → Q s →
      Ends E code (after .no_trim code) s fun s' =>
        Done E.es dst (axT E m0 a x y) m0 n s'.mem := by
    intro i s h hb hlt hal hq
    have hA : after .no_trim code = seg [.movQ .CX .BX, .andQ 7 .BX, .shrQ 3 .CX] ++
        .jz .tail_start :: (seg late ++ .label .loop :: after .loop code) := by
      rw [hcode]; simp only [axpy64, after, after_seg, reduceCtorEq, if_false, if_true]
    rw [hA]
    obtain ⟨t, ht, t1, t2, t3, t4, t6, t8⟩ : ∃ t : St R,
        execs E [.movQ .CX .BX, .andQ 7 .BX, .shrQ 3 .CX] s = some t ∧
        (∀ q, q ≠ .BX → q ≠ .CX → t.r q = s.r q) ∧ t.r .BX = s.r .CX % 8 ∧ t.r .CX = s.r .CX / 8 ∧
        t.v = s.v ∧ t.mem = s.mem ∧ t.zf = (s.r .CX / 8 == 0) := by
      have h7 := and_low (s.r .CX) 3
      norm_num at h7
      refine ⟨_, rfl, ?_, ?_, ?_, rfl, rfl, ?_⟩
      · intro q h1 h2; simp [St.setR, h1, h2]
      · simp [St.setR, h7]
      · simp [St.setR, Nat.shiftRight_eq_div_pow]
      · simp [St.setR, Nat.shiftRight_eq_div_pow]
    have hi : AxInv E py m0 a x y dst n i t := h.keep' (t1 _ (by decide) (by decide))
      (t1 _ (by decide) (by decide)) (t1 _ py2 py3) (t1 _ (by decide) (by decide)) (by rw [t4]) t6
    refine Ends.seg ht (Ends.jz ?_ ?_)
    · intro hz
      simp only [t8, beq_iff_eq] at hz
      exact htailS i t hi (by rw [t2]; omega) hlt hal
    · intro hz
      simp only [t8, beq_eq_false_iff_ne, ne_eq] at hz
      obtain ⟨k, hk⟩ : ∃ k, s.r .CX / 8 = k + 1 := ⟨s.r .CX / 8 - 1, by omega⟩
      obtain ⟨u, hu, ur, um, u0, u1⟩ := hlate t (hQ s t (by rw [t4]) hq)
        (fun l hl => hi.v0 l (by omega))
      refine Ends.seg hu (hloop k u ⟨i, by rw [ur, t2]; omega, hal, u1, ?_⟩ (by rw [ur, t3, hk])).label
      exact hi.keep' (by rw [ur]) (by rw [ur]) (by rw [ur]) (by rw [ur]) u0 um
  -- the beginning
  have hA : code = seg (args ++ [.cmpQ .CX 0]) ++ .jz .end_ ::
      (seg (mid ++ [.movQ py .BX, .andQ 15 .BX]) ++ .jz .no_trim ::
      (seg (axBody 8 .s none 1 2 py ++ [.incQ .AX, .decQ .CX]) ++ .jz .end_ :: .label .no_trim ::
        after .no_trim code)) := by
    rw [hcode]; simp only [axpy64, after, after_seg, reduceCtorEq, if_false, if_true]
  conv => arg 3; rw [hA]
  refine Ends.seg ((execs_append ht).trans rfl) (Ends.jz ?_ ?_)
  · intro hz
    simp only [tcx, beq_iff_eq] at hz
    refine hend _ ?_
    simp only [hz, tm]
    exact .zero
  · intro hz
    simp only [tcx, beq_eq_false_iff_ne, ne_eq] at hz
    obtain ⟨u, hu, ur, ua, um, uv, uq⟩ :=
      hmid { t with zf := t.r .CX == 0, lt := decide (t.r .CX < 0) }
    refine Ends.seg ((execs_append hu).trans rfl) ?_
    have hy : u.r py = y := by rw [ur _ py1]; exact tpy
    have hinv : ∀ v : St R, v.r .SI = u.r .SI → v.r .DI = u.r .DI → v.r py = u.r py →
        v.r .AX = u.r .AX → v.v = u.v → v.mem = u.mem → AxInv E py m0 a x y dst n 0 v := by
      intro v h1 h2 h3 h4 h5 h6
      refine ⟨by omega, ?_, ?_, by rw [h3, hy], by rw [h4, ua], ?_, ?_⟩
      · rw [h1, ur _ (by decide)]; exact tsi
      · rw [h2, ur _ (by decide)]; exact tdi
      · rw [h5, h48]; exact uv
      · rw [h6, um]; simp only [tm]; exact .zero
    have hcx : u.r .CX = n := by rw [ur _ (by decide)]; exact tcx
    refine Ends.jz ?_ ?_
    · intro hz0
      simp [St.setR, hy, and15] at hz0
      refine hnt 0 _ (hinv _ ?_ ?_ ?_ ?_ rfl rfl) ?_ (by omega) (by simpa using hz0) (hQ u _ rfl uq)
      · simp [St.setR]
      · simp [St.setR]
      · simp [St.setR, py2]
      · simp [St.setR]
      · simp [St.setR, hcx]
    · intro hz0
      simp [St.setR, hy, and15] at hz0
      have h0 := hinv { (u.setR .BX (u.r py)).setR .BX ((u.setR .BX (u.r py)).r .BX &&& 15) with
          zf := (u.setR .BX (u.r py)).r .BX &&& 15 == 0, lt := false }
        (by simp [St.setR]) (by simp [St.setR]) (by simp [St.setR, py2]) (by simp [St.setR]) rfl rfl
      obtain ⟨b, hb, br, -, bv, bm⟩ := ax_body (w := .s) (u := 1) (d := 2) (ix := none) hp
        (by rw [ls, h48]; omega) h0 (by rw [ls]; omega) (.inr ⟨rfl, rfl⟩) (by omega)
        (by intro k hk h1; omega) (by simp)
      rw [hes] at hb
      have bcx : b.r .CX = n := by rw [br]; simp [St.setR, hcx]
      have he : execs E [.incQ .AX, .decQ .CX] b = some
          { (b.setR .AX (b.r .AX + 1)).setR .CX (n - 1) with zf := n - 1 == 0, lt := false } := by
        simp [execs, exec, St.setR, bcx]
        omega
      refine Ends.seg ((execs_append hb).trans he) (Ends.jz ?_ ?_)
      · intro hz1
        simp only [beq_iff_eq] at hz1
        refine hend _ ?_
        have : n = 1 := by omega
        rw [ls] at bm
        rw [this]
        exact bm
      · intro hz1
        simp only [beq_eq_false_iff_ne, ne_eq] at hz1
        refine (hnt 1 _ ⟨by omega, ?_, ?_, ?_, ?_, ?_, ?_⟩ ?_ (by omega) ?_ (hQ u _ ?_ uq)).label
        · simp [St.setR, br]; exact h0.si
        · simp [St.setR, br]; exact h0.di
        · simp [St.setR, br, py1, py2, py3, hy]
        · have := h0.ax
          simp only [St.setR, br] at this ⊢
          simp at this ⊢; exact this
        · intro l hl; simp only [St.setR, bv 0 (by omega)]; exact h0.v0 l hl
        · exact bm
        · simp [St.setR]
        · rw [hes]; omega
        · simp only [St.setR, bv 1 (by omega)]

end ax64

end Verif.Gonum
