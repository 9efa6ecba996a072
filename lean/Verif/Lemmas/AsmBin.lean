/- The two-operand routines (add, sub, div): general form and correctness. -/
import Verif.Lemmas.Asm
set_option autoImplicit false
set_option linter.unusedSimpArgs false

namespace Verif.Asm

variable {R : Type}

/-- Arrays at `x` and `y` of `n` elements of `es` bytes are the same or have no common cell. -/
def SameOrApart (es n x y : Nat) : Prop :=
  x = y ∨ ∀ i j, i < n → j < n → x + es * i ≠ y + es * j

/-- The first `i` cells of the array at `y` hold `T`, every other cell is as in `m0`. -/
def Done (es y : Nat) (T : Nat → R) (m0 : Nat → R) (i : Nat) (m : Nat → R) : Prop :=
  (∀ j, j < i → m (y + es * j) = T j) ∧ ∀ a, (∀ j, j < i → a ≠ y + es * j) → m a = m0 a

theorem Done.zero {es y : Nat} {T m0 : Nat → R} : Done es y T m0 0 m0 :=
  ⟨fun j hj => by omega, fun _ _ => rfl⟩

theorem Done.read {es n x y i : Nat} {T m0 m : Nat → R} (hes : 0 < es) (hd : Done es y T m0 i m)
    (hxy : SameOrApart es n x y) (hi : i ≤ n) {j : Nat} (hj : i ≤ j) (hjn : j < n) :
    m (x + es * j) = m0 (x + es * j) := by
  refine hd.2 _ fun k hk he => ?_
  rcases hxy with rfl | h
  · have := Nat.eq_of_mul_eq_mul_left hes (Nat.add_left_cancel he)
    omega
  · exact h j k hjn (by omega) he

theorem Done.write {es y i c : Nat} {T m0 m m' : Nat → R} (hes : 0 < es) (hd : Done es y T m0 i m)
    (h1 : ∀ j, j < c → m' (y + es * i + es * j) = T (i + j))
    (h2 : ∀ a, (∀ j, j < c → a ≠ y + es * i + es * j) → m' a = m a) :
    Done es y T m0 (i + c) m' := by
  have key : ∀ j, y + es * i + es * j = y + es * (i + j) := fun j => by ring
  constructor
  · intro j hj
    by_cases hji : j < i
    · rw [h2, hd.1 j hji]
      intro k hk he
      rw [key] at he
      have := Nat.eq_of_mul_eq_mul_left hes (Nat.add_left_cancel he)
      omega
    · obtain ⟨k, rfl⟩ : ∃ k, j = i + k := ⟨j - i, by omega⟩
      rw [← key, h1 k (by omega)]
  · intro a ha
    rw [h2, hd.2]
    · exact fun j hj => ha j (by omega)
    · intro j hj
      rw [key]
      exact ha _ (by omega)

theorem index_split {c L j : Nat} (hj : j < c * L) : j / L < c ∧ j % L < L ∧ j = j / L * L + j % L := by
  have hL : 0 < L := by
    rcases Nat.eq_zero_or_pos L with h | h
    · subst h; simp at hj
    · exact h
  refine ⟨(Nat.div_lt_iff_lt_mul hL).2 hj, Nat.mod_lt _ hL, ?_⟩
  have := Nat.div_add_mod j L
  rw [Nat.mul_comm] at this
  omega

/-! ### The general form of the code -/

def binOp (vex : Bool) (o : Arith) (w : W) (off k : Nat) : Ins :=
  if vex then .op3 o w (.m ⟨.CX, off⟩) k k else .op2 o w (.m ⟨.CX, off⟩) k

/-- Body of a loop working on `u` registers. -/
def binBody (es : Nat) (vex : Bool) (o : Arith) (w : W) (u : Nat) : List Ins :=
  ((List.range u).map fun k => Ins.ld vex w ⟨.AX, es * lanesOf es w * k⟩ (k + 0)) ++
  ((List.range u).map fun k => binOp vex o w (es * lanesOf es w * k) k) ++
  ((List.range u).map fun k => Ins.st w (k + 0) ⟨.DX, es * lanesOf es w * k⟩) ++
  [.addQ (es * lanesOf es w * u) .AX, .addQ (es * lanesOf es w * u) .CX,
    .addQ (es * lanesOf es w * u) .DX]

/-- The three loops. -/
def binLoops (es : Nat) (vex tv : Bool) (o : Arith) (w : W) : List Line :=
  .label .unrolledLoop :: .i (.cmpQ .BX (16 * lanesOf es w)) :: .jcc .l .singleRegisterLoop ::
  (seg (binBody es vex o w 16 ++ [.subQ (16 * lanesOf es w) .BX]) ++ .jmp .unrolledLoop ::
  .label .singleRegisterLoop :: .i (.cmpQ .BX (1 * lanesOf es w)) :: .jcc .l .tailLoop ::
  (seg (binBody es vex o w 1 ++ [.subQ (1 * lanesOf es w) .BX]) ++ .jmp .singleRegisterLoop ::
  .label .tailLoop :: .i (.cmpQ .BX 0) :: .jcc .z .end_ ::
  (seg (binBody es tv o .s 1 ++ [.decQ .BX]) ++ .jmp .tailLoop ::
  [.label .end_, .ret])))

def binArgs : List Ins := [.argQ 0 .AX, .argQ 24 .CX, .argQ 48 .DX, .argQ 8 .BX]

/-- Add, Sub, Div for AVX.  The tail of Add is in AVX instructions (`tv`), those of Sub and Div in
SSE instructions. -/
def binAVX (es : Nat) (tv : Bool) (o : Arith) : List Line := seg binArgs ++ binLoops es true tv o .y

/-- The alignment prelude of the 32-bit SSE routines. -/
def binSSE32 (o : Arith) : List Line :=
  seg binArgs ++ .i (.cmpQ .BX 0) :: .jcc .z .end_ ::
  (seg [.movQ .CX .SI, .andQ 15 .SI] ++ .jcc .z .unrolledLoop ::
  (seg [.xorQ 15 .SI, .incQ .SI, .shrQ 2 .SI] ++ .label .alignmentLoop ::
  (seg (binBody 4 false o .s 1 ++ [.decQ .BX]) ++ .jcc .z .end_ ::
  .i (.decQ .SI) :: .jcc .nz .alignmentLoop :: binLoops 4 false false o .x)))

/-- The alignment prelude of the 64-bit SSE routines. -/
def binSSE64 (o : Arith) : List Line :=
  seg binArgs ++ .i (.cmpQ .BX 0) :: .jcc .z .end_ ::
  (seg [.movQ .CX .SI, .andQ 15 .SI] ++ .jcc .z .unrolledLoop ::
  (seg (binBody 8 false o .s 1 ++ [.decQ .BX]) ++ binLoops 8 false false o .x))

/-! ### Correctness -/

section
variable {E : Env R} {w : W}

/-- The arithmetic of an unrolled body. -/
theorem binOps {vex : Bool} {o : Arith} {u : Nat} {s : St R}
    (hrd : ∀ j, j < u * E.lanes w → E.rd (s.r .CX + E.es * j) = true)
    (hal : vex = false → w = .x → s.r .CX % 16 = 0 ∧ 16 ∣ E.es * E.lanes w) :
    ∃ t, execs E ((List.range u).map fun k => binOp vex o w (E.es * E.lanes w * k) k) s = some t ∧
      t.r = s.r ∧ t.mem = s.mem ∧
      (∀ k, k < u → ∀ l, l < E.lanes w →
        t.v k l = E.alu.op o (s.v k l) (s.mem (s.r .CX + E.es * (k * E.lanes w + l)))) := by
  obtain ⟨t, ht, h1, h2, h4, -⟩ := execs_range (E := E) (s := s)
    (fun k => binOp vex o w (E.es * E.lanes w * k) k)
    (fun k t => t.r = s.r ∧ t.mem = s.mem ∧
      (∀ q, q < k → ∀ l, l < E.lanes w →
        t.v q l = E.alu.op o (s.v q l) (s.mem (s.r .CX + E.es * (q * E.lanes w + l)))) ∧
      ∀ q, k ≤ q → t.v q = s.v q) u
    ⟨rfl, rfl, fun q hq => by omega, fun _ _ => rfl⟩
    (by
      rintro k hk t ⟨h1, h2, h4, h5⟩
      have ha : t.addr ⟨.CX, E.es * E.lanes w * k⟩ = s.r .CX + E.es * (k * E.lanes w) := by
        simp [St.addr, h1]; ring
      have hle : (k + 1) * E.lanes w ≤ u * E.lanes w := Nat.mul_le_mul_right _ hk
      have hk1 : (k + 1) * E.lanes w = k * E.lanes w + E.lanes w := by ring
      have hok : ∀ l, l < E.lanes w →
          E.rd (s.r .CX + E.es * (k * E.lanes w) + E.es * l) = true := by
        intro l hl
        rw [Nat.add_assoc, ← Nat.mul_add]
        exact hrd _ (by omega)
      have hv : t.v k = s.v k := h5 k le_rfl
      cases vex with
      | true =>
        have hs : E.src t w false (.m ⟨.CX, E.es * E.lanes w * k⟩) = _ :=
          src_m ha hok (by simp)
        refine ⟨_, exec_op3 hs, h1, h2, ?_, ?_⟩
        · intro q hq l hl
          by_cases hqk : q = k
          · subst hqk
            simp [St.setV, Env.vex, hl, h2, hv, Nat.mul_add, Nat.add_assoc]
          · simp only [St.setV, hqk, if_false]
            exact h4 q (by omega) l hl
        · intro q hq
          have : ¬ q = k := by omega
          simp only [St.setV, this, if_false]
          exact h5 q (by omega)
      | false =>
        have hs : E.src t w (decide (w = .x)) (.m ⟨.CX, E.es * E.lanes w * k⟩) = _ :=
          src_m ha hok (by
            intro hw
            obtain ⟨h, c, hc⟩ := hal rfl (by simpa using hw)
            have : E.es * (k * E.lanes w) = 16 * (c * k) := by
              calc E.es * (k * E.lanes w) = (E.es * E.lanes w) * k := by ring
                _ = _ := by rw [hc]; ring
            omega)
        refine ⟨_, exec_op2 hs, h1, h2, ?_, ?_⟩
        · intro q hq l hl
          by_cases hqk : q = k
          · subst hqk
            simp [St.setV, keep, hl, h2, hv, Nat.mul_add, Nat.add_assoc]
          · simp only [St.setV, hqk, if_false]
            exact h4 q (by omega) l hl
        · intro q hq
          have : ¬ q = k := by omega
          simp only [St.setV, this, if_false]
          exact h5 q (by omega))
  exact ⟨t, ht, h1, h2, h4⟩

/-- Invariant of the loops: `i` elements are done. -/
structure BinInv (E : Env R) (o : Arith) (x1 x2 y n : Nat) (m0 : Nat → R) (i : Nat) (s : St R) :
    Prop where
  le : i ≤ n
  ax : s.r .AX = x1 + E.es * i
  cx : s.r .CX = x2 + E.es * i
  dx : s.r .DX = y + E.es * i
  bx : s.r .BX = n - i
  mem : Done E.es y (fun j => E.alu.op o (m0 (x1 + E.es * j)) (m0 (x2 + E.es * j))) m0 i s.mem

variable {o : Arith} {x1 x2 y n : Nat} {m0 : Nat → R}

/-- What a routine may touch, and the condition on overlaps. -/
structure BinPre (E : Env R) (x1 x2 y n : Nat) : Prop where
  es : 0 < E.es
  rd1 : ∀ i, i < n → E.rd (x1 + E.es * i) = true
  rd2 : ∀ i, i < n → E.rd (x2 + E.es * i) = true
  wr : ∀ i, i < n → E.wr (y + E.es * i) = true
  ov1 : SameOrApart E.es n x1 y
  ov2 : SameOrApart E.es n x2 y

theorem adds3 (E : Env R) (k : Nat) (s : St R) :
    ∃ t, execs E [.addQ k .AX, .addQ k .CX, .addQ k .DX] s = some t ∧ t.mem = s.mem ∧
      t.r .AX = s.r .AX + k ∧ t.r .CX = s.r .CX + k ∧ t.r .DX = s.r .DX + k ∧
      t.r .BX = s.r .BX ∧ t.r .SI = s.r .SI :=
  ⟨_, rfl, rfl, by simp [St.setR], by simp [St.setR], by simp [St.setR], by simp [St.setR],
    by simp [St.setR]⟩

theorem bin_body (hp : BinPre E x1 x2 y n) {vex : Bool} {u i : Nat} {s : St R}
    (hx : E.lanes w ≤ 16 / E.es ∨ vex = true)
    (h : BinInv E o x1 x2 y n m0 i s) (hn : i + u * E.lanes w ≤ n)
    (hal : vex = false → w = .x → (x2 + E.es * i) % 16 = 0 ∧ 16 ∣ E.es * E.lanes w) :
    ∃ s', execs E (binBody E.es vex o w u) s = some s' ∧
      s'.r .AX = x1 + E.es * (i + u * E.lanes w) ∧ s'.r .CX = x2 + E.es * (i + u * E.lanes w) ∧
      s'.r .DX = y + E.es * (i + u * E.lanes w) ∧ s'.r .BX = s.r .BX ∧ s'.r .SI = s.r .SI ∧
      Done E.es y (fun j => E.alu.op o (m0 (x1 + E.es * j)) (m0 (x2 + E.es * j))) m0
        (i + u * E.lanes w) s'.mem := by
  have key : ∀ x j, x + E.es * i + E.es * j = x + E.es * (i + j) := fun x j => by ring
  obtain ⟨a, ha, ar, am, -, av, -⟩ := loads (E := E) (w := w) (vex := vex) (base := .AX) (d := 0)
    (u := u) (s := s) hx (by
      intro j hj; rw [h.ax, key]; exact hp.rd1 _ (by omega))
  obtain ⟨b, hb, br, bm, bv⟩ := binOps (E := E) (w := w) (vex := vex) (o := o) (u := u) (s := a) (by
      intro j hj; rw [ar, h.cx, key]; exact hp.rd2 _ (by omega))
    (by rw [ar, h.cx]; exact hal)
  obtain ⟨c, hc, cr, -, -, c1, c2⟩ := stores (E := E) (w := w) (base := .DX) (d := 0) (u := u)
    (s := b) hp.es (by
      intro j hj; rw [br, ar, h.dx, key]; exact hp.wr _ (by omega))
  obtain ⟨d, hd, dm, d1, d2, d3, d4, d5⟩ := adds3 E (E.es * E.lanes w * u) c
  have hr : c.r = s.r := by rw [cr, br, ar]
  rw [hr] at d1 d2 d3 d4 d5
  refine ⟨d, ?_, ?_, ?_, ?_, d4, d5, ?_⟩
  · rw [binBody, List.append_assoc, List.append_assoc]
    exact (execs_append ha).trans ((execs_append hb).trans ((execs_append hc).trans hd))
  · rw [d1, h.ax]; ring
  · rw [d2, h.cx]; ring
  · rw [d3, h.dx]; ring
  · rw [dm]
    refine Done.write hp.es h.mem ?_ ?_
    · intro j hj
      obtain ⟨h1, h2, h3⟩ := index_split hj
      have e1 := c1 _ h1 _ h2
      rw [← h3, br, ar, h.dx] at e1
      rw [e1, Nat.add_zero, bv _ h1 _ h2, ← h3, ar, am, h.cx, key]
      have e2 := av _ h1 _ h2
      rw [← h3, h.ax, key] at e2
      rw [Nat.add_zero] at e2
      rw [e2, h.mem.read hp.es hp.ov1 h.le (by omega) (by omega),
        h.mem.read hp.es hp.ov2 h.le (by omega) (by omega)]
    · intro q hq
      rw [c2 q (by rw [br, ar, h.dx]; exact hq), bm, am]

theorem bin_body_sub (hp : BinPre E x1 x2 y n) {vex : Bool} {u i : Nat} {s : St R}
    (hx : E.lanes w ≤ 16 / E.es ∨ vex = true)
    (h : BinInv E o x1 x2 y n m0 i s) (hn : i + u * E.lanes w ≤ n)
    (hal : vex = false → w = .x → (x2 + E.es * i) % 16 = 0 ∧ 16 ∣ E.es * E.lanes w) :
    ∃ s', execs E (binBody E.es vex o w u ++ [.subQ (u * E.lanes w) .BX]) s = some s' ∧
      BinInv E o x1 x2 y n m0 (i + u * E.lanes w) s' := by
  obtain ⟨s', hs, h1, h2, h3, h4, -, h5⟩ := bin_body hp hx h hn hal
  have hb := h.bx
  rw [execs_append hs]
  refine ⟨_, exec_subQ (by omega), hn, ?_, ?_, ?_, ?_, ?_⟩
  · simp [St.setR, h1]
  · simp [St.setR, h2]
  · simp [St.setR, h3]
  · simp [St.setR, h4, hb]; omega
  · exact h5

theorem bin_body_dec (hp : BinPre E x1 x2 y n) {vex : Bool} {i : Nat} {s : St R}
    (hx : E.lanes .s ≤ 16 / E.es ∨ vex = true)
    (h : BinInv E o x1 x2 y n m0 i s) (hn : i + 1 ≤ n) :
    ∃ s', execs E (binBody E.es vex o .s 1 ++ [.decQ .BX]) s = some s' ∧
      BinInv E o x1 x2 y n m0 (i + 1) s' ∧ s'.r .SI = s.r .SI ∧ s'.zf = (n - (i + 1) == 0) := by
  obtain ⟨s', hs, h1, h2, h3, h4, h6, h5⟩ :=
    bin_body (w := .s) (u := 1) (vex := vex) hp hx h hn (by simp)
  have hb := h.bx
  rw [execs_append hs]
  refine ⟨_, exec_decQ (by omega), ⟨hn, ?_, ?_, ?_, ?_, ?_⟩,
    ?_, ?_⟩
  · simpa [St.setR, Env.lanes, lanesOf] using h1
  · simpa [St.setR, Env.lanes, lanesOf] using h2
  · simpa [St.setR, Env.lanes, lanesOf] using h3
  · simp [St.setR, h4, hb]; omega
  · exact h5
  · simpa [St.setR] using h6
  · simp [h4, hb]; omega

theorem BinInv.flags {i : Nat} {s : St R} (h : BinInv E o x1 x2 y n m0 i s) (z l : Bool) :
    BinInv E o x1 x2 y n m0 i { s with zf := z, lt := l } :=
  ⟨h.le, h.ax, h.cx, h.dx, h.bx, h.mem⟩

/-- The three loops, from any number of elements already done. -/
theorem binLoops_correct (hp : BinPre E x1 x2 y n) (hes : E.es = 4 ∨ E.es = 8) {vex tv : Bool}
    (hw : (vex = true ∧ w = .y) ∨ (vex = false ∧ w = .x)) {code : List Line}
    (hcode : ∀ l, l = .unrolledLoop ∨ l = .singleRegisterLoop ∨ l = .tailLoop ∨ l = .end_ →
      after l code = after l (binLoops E.es vex tv o w)) :
    (∀ s, BinInv E o x1 x2 y n m0 n s → ∃ s', Run E code (after .end_ code) s s' ∧
      Done E.es y (fun j => E.alu.op o (m0 (x1 + E.es * j)) (m0 (x2 + E.es * j))) m0 n s'.mem) ∧
    ∀ i s, BinInv E o x1 x2 y n m0 i s → (vex = false → (x2 + E.es * i) % 16 = 0) →
      ∃ s', Run E code (after .unrolledLoop code) s s' ∧
      Done E.es y (fun j => E.alu.op o (m0 (x1 + E.es * j)) (m0 (x2 + E.es * j))) m0 n s'.mem := by
  have hL : 0 < E.lanes w := by
    rcases hw with ⟨-, rfl⟩ | ⟨-, rfl⟩ <;> rcases hes with h | h <;> simp [Env.lanes, lanesOf, h]
  have h16 : 16 ∣ E.es * E.lanes w := by
    rcases hw with ⟨-, rfl⟩ | ⟨-, rfl⟩ <;> rcases hes with h | h <;> simp [Env.lanes, lanesOf, h]
  have hx : E.lanes w ≤ 16 / E.es ∨ vex = true := by
    rcases hw with ⟨h, -⟩ | ⟨-, rfl⟩
    · exact .inr h
    · exact .inl le_rfl
  have hxs : E.lanes .s ≤ 16 / E.es ∨ tv = true := by
    left; rcases hes with h | h <;> simp [Env.lanes, lanesOf, h]
  have hend : ∀ s, BinInv E o x1 x2 y n m0 n s → ∃ s', Run E code (after .end_ code) s s' ∧
      Done E.es y (fun j => E.alu.op o (m0 (x1 + E.es * j)) (m0 (x2 + E.es * j))) m0 n s'.mem := by
    intro s h
    refine ⟨s, ?_, h.mem⟩
    rw [hcode _ (by simp)]
    simp only [binLoops, after, after_seg]
    exact .ret
  have htail := loop_z (E := E) (code := code) (n := n) (cnt := .BX) (L := .tailLoop) (N := .end_)
    (Post := fun s' => Done E.es y (fun j => E.alu.op o (m0 (x1 + E.es * j))
      (m0 (x2 + E.es * j))) m0 n s'.mem) (Inv := BinInv E o x1 x2 y n m0)
    (body := binBody E.es tv o .s 1 ++ [.decQ .BX]) (rest := [.label .end_, .ret])
    (by rw [hcode _ (by simp)]; simp [binLoops, after, after_seg])
    (fun i s h => ⟨h.le, h.bx⟩) (fun i s z l h => h.flags z l)
    (fun i s h hi => by
      obtain ⟨s', h1, h2, -⟩ := bin_body_dec hp hxs h hi
      exact ⟨s', h1, h2⟩) hend
  have step : ∀ u i s, (BinInv E o x1 x2 y n m0 i s ∧ (vex = false → (x2 + E.es * i) % 16 = 0)) →
      i + u * E.lanes w ≤ n →
      ∃ s', execs E (binBody E.es vex o w u ++ [.subQ (u * E.lanes w) .BX]) s = some s' ∧
        (BinInv E o x1 x2 y n m0 (i + u * E.lanes w) s' ∧
          (vex = false → (x2 + E.es * (i + u * E.lanes w)) % 16 = 0)) := by
    rintro u i s ⟨h, ha⟩ hi
    obtain ⟨s', h1, h2⟩ := bin_body_sub (u := u) hp hx h hi fun hv _ => ⟨ha hv, h16⟩
    refine ⟨s', h1, h2, fun hv => ?_⟩
    obtain ⟨c, hc⟩ := h16
    have h1 := ha hv
    have : E.es * (i + u * E.lanes w) = E.es * i + 16 * (c * u) := by
      calc E.es * (i + u * E.lanes w) = E.es * i + (E.es * E.lanes w) * u := by ring
        _ = _ := by rw [hc]; ring
    omega
  have hsingle := loop_l (E := E) (code := code) (n := n) (cnt := .BX) (L := .singleRegisterLoop)
    (N := .tailLoop) (Post := fun s' => Done E.es y (fun j => E.alu.op o (m0 (x1 + E.es * j))
      (m0 (x2 + E.es * j))) m0 n s'.mem)
    (Inv := fun i s => BinInv E o x1 x2 y n m0 i s ∧ (vex = false → (x2 + E.es * i) % 16 = 0))
    (c := 1 * E.lanes w) (by omega)
    (body := binBody E.es vex o w 1 ++ [.subQ (1 * lanesOf E.es w) .BX])
    (rest := after .singleRegisterLoop (.label .singleRegisterLoop :: .label .tailLoop ::
      .i (.cmpQ .BX 0) :: .jcc .z .end_ ::
      (seg (binBody E.es tv o .s 1 ++ [.decQ .BX]) ++ .jmp .tailLoop :: [.label .end_, .ret])))
    (by rw [hcode _ (by simp)]; simp [binLoops, after, after_seg, Env.lanes])
    (fun i s h => ⟨h.1.le, h.1.bx⟩) (fun i s z l h => ⟨h.1.flags z l, h.2⟩)
    (step 1) (fun i s h _ => htail i s h.1)
  have hunr := loop_l (E := E) (code := code) (n := n) (cnt := .BX) (L := .unrolledLoop)
    (N := .singleRegisterLoop) (Post := fun s' => Done E.es y (fun j => E.alu.op o
      (m0 (x1 + E.es * j)) (m0 (x2 + E.es * j))) m0 n s'.mem)
    (Inv := fun i s => BinInv E o x1 x2 y n m0 i s ∧ (vex = false → (x2 + E.es * i) % 16 = 0))
    (c := 16 * E.lanes w) (by omega)
    (body := binBody E.es vex o w 16 ++ [.subQ (16 * lanesOf E.es w) .BX])
    (rest := _)
    (by rw [hcode _ (by simp)]; simp only [binLoops, after, after_seg, Env.lanes, if_true]; rfl)
    (fun i s h => ⟨h.1.le, h.1.bx⟩) (fun i s z l h => ⟨h.1.flags z l, h.2⟩)
    (step 16) (fun i s h _ => hsingle i s h)
  exact ⟨hend, fun i s h ha => hunr i s ⟨h, ha⟩⟩

/-- The arguments. -/
structure BinArgs (E : Env R) (x1 x2 y n : Nat) : Prop where
  a1 : E.argQ 0 = x1
  a2 : E.argQ 24 = x2
  a3 : E.argQ 48 = y
  len : E.argQ 8 = n

theorem binArgs_exec (ha : BinArgs E x1 x2 y n) (s : St R) :
    ∃ t, execs E binArgs s = some t ∧ BinInv E o x1 x2 y n s.mem 0 t :=
  ⟨_, rfl, by omega, by simp [St.setR, ha.a1], by simp [St.setR, ha.a2], by simp [St.setR, ha.a3],
    by simp [St.setR, ha.len], Done.zero⟩

theorem binAVX_correct (ha : BinArgs E x1 x2 y n) (hp : BinPre E x1 x2 y n)
    (hes : E.es = 4 ∨ E.es = 8) (tv : Bool) (s : St R) :
    ∃ s', Call E (binAVX E.es tv o) s s' ∧
      Done E.es y (fun j => E.alu.op o (s.mem (x1 + E.es * j)) (s.mem (x2 + E.es * j))) s.mem n
        s'.mem := by
  obtain ⟨t, ht, hi⟩ := binArgs_exec (o := o) ha s
  obtain ⟨-, h⟩ := binLoops_correct (w := .y) (vex := true) (tv := tv) (o := o) (m0 := s.mem) hp hes
    (.inl ⟨rfl, rfl⟩) (code := binAVX E.es tv o) fun l hl => after_seg _ _ _
  obtain ⟨s', hs', hd⟩ := h 0 t hi (by simp)
  refine ⟨s', Run.seg ht (.label ?_), hd⟩
  have : after .unrolledLoop (binAVX E.es tv o) = _ := after_seg _ _ _
  rw [this] at hs'
  simpa [binLoops, after] using hs'

theorem BinInv.tmp {i : Nat} {s : St R} (h : BinInv E o x1 x2 y n m0 i s) (a : Nat) (z : Bool) :
    BinInv E o x1 x2 y n m0 i { s.setR .SI a with zf := z } :=
  ⟨h.le, by simpa [St.setR] using h.ax, by simpa [St.setR] using h.cx,
    by simpa [St.setR] using h.dx, by simpa [St.setR] using h.bx, h.mem⟩

theorem binSSE64_correct (ha : BinArgs E x1 x2 y n) (hp : BinPre E x1 x2 y n)
    (hes : E.es = 8) (hx2 : x2 % 8 = 0) (s : St R) : ∃ s', Call E (binSSE64 o) s s' ∧
      Done E.es y (fun j => E.alu.op o (s.mem (x1 + E.es * j)) (s.mem (x2 + E.es * j))) s.mem n
        s'.mem := by
  obtain ⟨t, ht, hi⟩ := binArgs_exec (o := o) ha s
  obtain ⟨hend, h⟩ := binLoops_correct (w := .x) (vex := false) (tv := false) (o := o) (m0 := s.mem) hp
    (.inr hes) (.inr ⟨rfl, rfl⟩) (code := binSSE64 o) fun l hl => by
      rcases hl with rfl | rfl | rfl | rfl <;> simp [binSSE64, after, after_seg, hes]
  obtain ⟨s', hs', hd⟩ := prelude64 (E := E) (code := binSSE64 o) (n := n) (cnt := .BX) (tmp := .SI)
    (ptr := .CX) (N := .end_) (U := .unrolledLoop) (p := x2)
    (body := binBody 8 false o .s 1 ++ [.decQ .BX]) (rest := binLoops 8 false false o .x)
    (Inv := BinInv E o x1 x2 y n s.mem)
    (Post := fun s' => Done E.es y (fun j => E.alu.op o (s.mem (x1 + E.es * j))
      (s.mem (x2 + E.es * j))) s.mem n s'.mem) (by decide) hx2
    (fun i s h => ⟨h.le, h.bx⟩) (fun s h => by simpa using h.cx) (fun i s z l h => h.flags z l)
    (fun i s a z h => h.tmp a z)
    (fun i s h hi => hes ▸ bin_body_dec hp (by left; simp [Env.lanes, lanesOf, hes]) h hi)
    hend (fun s hi h16 => h 0 s hi fun _ => by simpa using h16)
    (fun i s hi h16 => by
      obtain ⟨s', hs', hd⟩ := h i s hi fun _ => by rw [hes]; exact h16
      refine ⟨s', .label ?_, hd⟩
      simpa [binSSE64, binLoops, after, after_seg] using hs') t hi
  exact ⟨s', Run.seg ht hs', hd⟩

theorem binSSE32_correct (ha : BinArgs E x1 x2 y n) (hp : BinPre E x1 x2 y n)
    (hes : E.es = 4) (hx2 : x2 % 4 = 0) (s : St R) : ∃ s', Call E (binSSE32 o) s s' ∧
      Done E.es y (fun j => E.alu.op o (s.mem (x1 + E.es * j)) (s.mem (x2 + E.es * j))) s.mem n
        s'.mem := by
  obtain ⟨t, ht, hi⟩ := binArgs_exec (o := o) ha s
  obtain ⟨hend, h⟩ := binLoops_correct (w := .x) (vex := false) (tv := false) (o := o) (m0 := s.mem) hp
    (.inl hes) (.inr ⟨rfl, rfl⟩) (code := binSSE32 o) fun l hl => by
      rcases hl with rfl | rfl | rfl | rfl <;> simp [binSSE32, after, after_seg, hes]
  obtain ⟨s', hs', hd⟩ := prelude32 (E := E) (code := binSSE32 o) (n := n) (cnt := .BX) (tmp := .SI)
    (ptr := .CX) (N := .end_) (U := .unrolledLoop) (p := x2)
    (body := binBody 4 false o .s 1 ++ [.decQ .BX]) (rest := binLoops 4 false false o .x)
    (Inv := BinInv E o x1 x2 y n s.mem)
    (Post := fun s' => Done E.es y (fun j => E.alu.op o (s.mem (x1 + E.es * j))
      (s.mem (x2 + E.es * j))) s.mem n s'.mem) (by decide) hx2
    (by simp [binSSE32, after, after_seg])
    (fun i s h => ⟨h.le, h.bx⟩) (fun s h => by simpa using h.cx) (fun i s z l h => h.flags z l)
    (fun i s a z h => h.tmp a z)
    (fun i s h hi => hes ▸ bin_body_dec hp (by left; simp [Env.lanes, lanesOf, hes]) h hi)
    hend (fun s hi h16 => h 0 s hi fun _ => by simpa using h16)
    (fun i s hi h16 => by
      obtain ⟨s', hs', hd⟩ := h i s hi fun _ => by rw [hes]; exact h16
      refine ⟨s', .label ?_, hd⟩
      simpa [binSSE32, binLoops, after, after_seg] using hs') t hi
  exact ⟨s', Run.seg ht hs', hd⟩
end

end Verif.Asm
