/- `CumSum` of 64 bits on amd64: the whole routine. -/
import Verif.Props.Gonum
import Verif.Lemmas.GonumCumSum
set_option autoImplicit false
set_option linter.unusedSimpArgs false
set_option maxRecDepth 10000

namespace Verif.Gonum

open Verif.Spec.Kernels
open Verif.Asm (Arith Alu W keep lanesOf Done SameOrApart Sl Sz poke poke_done elems_zip Exact)

variable {R : Type}

theorem cumSum64_form : cumSum64 = csCode := rfl

/-- What a call of `CumSum` leaves: the memory and the returned slice header. -/
structure CsEnd (E : Env R) (m0 : Nat → R) (x dst n cap : Nat) (s : St R) : Prop where
  mem : Done 8 dst (csT E.alu (fun j => m0 (x + 8 * j)) n) m0 n s.mem
  base : s.frame 48 = dst
  len : s.frame 56 = n
  cap : s.frame 64 = cap

section
variable {E : Env R} {m0 : Nat → R} {x dst n cap : Nat}

theorem cs_ends (hp : CsPre E x dst n) {s t : St R} (ht : execs E csArgs s = some t)
    (tsi : t.r .SI = x) (tdi : t.r .DI = dst) (tcx : t.r .CX = n) (tz : t.zf = (n == 0))
    (tf : t.frame 56 = n) (tc : t.frame 16 = cap) (tm : t.mem = m0) :
    Ends E csCode csCode s (CsEnd E m0 x dst n cap) := by
  obtain ⟨code, hcode⟩ : ∃ code, code = csCode := ⟨_, rfl⟩
  rw [← hcode]
  have hend : ∀ s, Done 8 dst (csT E.alu (fun j => m0 (x + 8 * j)) n) m0 n s.mem →
      s.r .DI = dst → s.frame = t.frame → Ends E code (after .cs_end code) s
      (CsEnd E m0 x dst n cap) := by
    intro s h hd hf
    rw [hcode]
    simp only [csCode, after, after_seg, reduceCtorEq, if_false, if_true]
    refine .seg rfl (.ret ⟨h, ?_, ?_, ?_⟩)
    · simp [St.setR, hd]
    · simp [St.setR, hf, tf]
    · simp [St.setR, hf, tc]
  have htail : ∀ k s, (4 * (n / 4) ≤ n - (k + 1) ∧ k + 1 ≤ n ∧ s.frame = t.frame ∧
      CsInv E m0 x dst n (4 * (n / 4) + (n % 4 - (k + 1)))
        (csQ E.alu (fun j => m0 (x + 8 * j)) (n / 4) (n % 4 - (k + 1))) s) → s.r .CX = k + 1 →
      Ends E code (after .cs_tail code) s (CsEnd E m0 x dst n cap) := by
    refine Ends.loop (Inv := fun k s => 4 * (n / 4) ≤ n - k ∧ k ≤ n ∧ s.frame = t.frame ∧
      CsInv E m0 x dst n (4 * (n / 4) + (n % 4 - k))
        (csQ E.alu (fun j => m0 (x + 8 * j)) (n / 4) (n % 4 - k)) s) (body := csTail)
      (rest := .label .cs_end :: after .cs_end code)
      (by rw [hcode]; simp only [csCode, after, after_seg, reduceCtorEq, if_false, if_true]) ?_ ?_ ?_
    · rintro k s a ⟨h1, h2, h3, h⟩
      exact ⟨h1, h2, h3, h.le, h.si, h.di, h.ax, h.v5, h.mem⟩
    · rintro k s ⟨h1, h2, h3, h⟩
      obtain ⟨u, hu, u1, u2, u3⟩ := cs_tail hp h (by omega)
      rw [show n % 4 - (k + 1) + 1 = n % 4 - k by omega] at u3
      exact ⟨u, hu, u1, by omega, by omega, u2.trans h3, u3⟩
    · rintro s ⟨-, -, h3, h⟩
      have e : 4 * (n / 4) + (n % 4 - 0) = n := by omega
      have hm := h.mem
      rw [e] at hm
      exact (hend s hm h.di h3).label
  have hts : ∀ s, s.frame = t.frame → 0 < n % 4 → s.r .BX = n % 4 →
      CsInv E m0 x dst n (4 * (n / 4)) (csP E.alu (fun j => m0 (x + 8 * j)) (n / 4)) s →
      Ends E code (after .cs_tail_start code) s (CsEnd E m0 x dst n cap) := by
    intro s h3 hn hb h
    have hA : after .cs_tail_start code = seg [.movQ .BX .CX] ++ .label .cs_tail ::
        after .cs_tail code := by
      rw [hcode]; simp only [csCode, after, after_seg, reduceCtorEq, if_false, if_true]
    rw [hA]
    refine .seg rfl (Ends.label (htail (n % 4 - 1) _ ⟨by omega, by omega, h3, ?_⟩ ?_))
    · rw [show n % 4 - (n % 4 - 1 + 1) = 0 by omega]
      exact ⟨h.le, h.si, h.di, h.ax, h.v5, h.mem⟩
    · simp [St.setR, hb]; omega
  have hloop : ∀ k s, (k + 1 ≤ n / 4 ∧ s.r .BX = n % 4 ∧ s.frame = t.frame ∧ s.v 5 1 = s.v 5 0 ∧
      CsInv E m0 x dst n (4 * (n / 4 - (k + 1)))
        (csP E.alu (fun j => m0 (x + 8 * j)) (n / 4 - (k + 1))) s) → s.r .CX = k + 1 →
      Ends E code (after .cs_loop code) s (CsEnd E m0 x dst n cap) := by
    refine Ends.loop (Inv := fun k s => k ≤ n / 4 ∧ s.r .BX = n % 4 ∧ s.frame = t.frame ∧
        s.v 5 1 = s.v 5 0 ∧ CsInv E m0 x dst n (4 * (n / 4 - k))
        (csP E.alu (fun j => m0 (x + 8 * j)) (n / 4 - k)) s) (body := csBody)
      (rest := seg [.cmpQ .BX 0] ++ .jz .cs_end :: .label .cs_tail_start :: after .cs_tail_start code)
      (by rw [hcode]; simp only [csCode, after, after_seg, reduceCtorEq, if_false, if_true]) ?_ ?_ ?_
    · rintro k s a ⟨h0, h1, h2, h3, h⟩
      exact ⟨h0, by simpa [St.setR] using h1, h2, h3, h.le, h.si, h.di, h.ax, h.v5, h.mem⟩
    · rintro k s ⟨h0, h1, h2, h3, h⟩
      obtain ⟨u, hu, u1, u2, u3, u4, u5⟩ := cs_body hp h h3 (by omega)
      rw [show n / 4 - (k + 1) + 1 = n / 4 - k by omega] at u5
      exact ⟨u, hu, u1, by omega, u2.trans h1, u3.trans h2, u4, u5⟩
    · rintro s ⟨-, h1, h2, h3, h⟩
      rw [Nat.sub_zero] at h
      refine .seg rfl (.jz ?_ ?_)
      · intro hz
        have hz : n % 4 = 0 := by simpa [h1] using hz
        have e : 4 * (n / 4) = n := by omega
        refine hend _ ?_ h.di h2
        have := h.mem
        rw [e] at this
        exact this
      · intro hz
        have hz : ¬ n % 4 = 0 := by simpa [h1] using hz
        exact Ends.label (hts _ h2 (by omega) h1 ⟨h.le, h.si, h.di, h.ax, h.v5, h.mem⟩)
  -- the entry
  conv => arg 3; rw [hcode]
  refine .seg ht (.jz ?_ ?_)
  · intro hz
    have hz : n = 0 := by simpa [tz] using hz
    refine hend _ ?_ tdi rfl
    rw [hz, tm]
    exact Done.zero
  · intro hz
    have hz : n ≠ 0 := by simpa [tz] using hz
    have a3 : n &&& 3 = n % 4 := and_low n 2
    have s2 : n >>> 2 = n / 4 := Nat.shiftRight_eq_div_pow n 2
    obtain ⟨u, hu, u1, u2, u3, u4, u5, u6, u7, u8, u9⟩ : ∃ u : St R, execs E
        [.clrQ .AX, .zero 5, .movQ .CX .BX, .andQ 3 .BX, .shrQ 2 .CX] t = some u ∧ u.r .SI = x ∧
        u.r .DI = dst ∧ u.r .AX = 0 ∧ u.r .BX = n % 4 ∧ u.r .CX = n / 4 ∧ u.mem = m0 ∧
        u.frame = t.frame ∧ (∀ l, l < 2 → u.v 5 l = E.alu.zero) ∧ u.zf = (n / 4 == 0) := by
      refine ⟨_, rfl, ?_, ?_, ?_, ?_, ?_, tm, rfl, ?_, ?_⟩ <;>
        simp [St.setR, St.setV, tsi, tdi, tcx, a3, s2]
      intro l hl
      simp [keep, hp.es, hl]
    have h0 : CsInv E m0 x dst n (4 * 0) (csP E.alu (fun j => m0 (x + 8 * j)) 0) u := by
      refine ⟨by omega, u1, u2, u3, u8 0 (by omega), ?_⟩
      rw [u6]; exact Done.zero
    refine .seg hu (.jz ?_ ?_)
    · intro hq
      have hq : n / 4 = 0 := by simpa [u9] using hq
      have hA : after .cs_tail_start csCode = after .cs_tail_start code := by rw [hcode]
      refine hts u u7 (by omega) u4 ?_
      rw [hq]; exact h0
    · intro hq
      have hq : n / 4 ≠ 0 := by simpa [u9] using hq
      have hA : (seg csBody ++ .loop .cs_loop ::
        (seg [.cmpQ .BX 0] ++ .jz .cs_end :: .label .cs_tail_start ::
        (seg [.movQ .BX .CX] ++ .label .cs_tail ::
        (seg csTail ++ .loop .cs_tail :: .label .cs_end ::
        (seg [.setQ .DI 48, .argQ 16 .SI, .setQ .SI 64] ++ [.ret]))))) = after .cs_loop code := by
        rw [hcode]; simp only [csCode, after, after_seg, reduceCtorEq, if_false, if_true]
      refine Ends.label ?_
      rw [hA]
      refine hloop (n / 4 - 1) u ⟨by omega, u4, u7, by rw [u8 1 (by omega), u8 0 (by omega)], ?_⟩ (by omega)
      rw [show n / 4 - (n / 4 - 1 + 1) = 0 by omega]
      exact h0

end

/-- The call ends in exactly one state; whatever the arithmetic is, `dst` holds `csT`. -/
theorem cumSum_done (alu : Alu R) {dst x : Sl} {cap : Nat} {s : St R}
    (hf : s.frame = cumSumFrame dst x cap)
    (ov : x.base = dst.base ∨ Apart 8 (min dst.len x.len) x.base dst.base) :
    ∃ s', (∀ t, Call (cumSumEnv alu dst x) cumSum64 s t ↔ t = s') ∧
      CsEnd (cumSumEnv alu dst x) s.mem x.base dst.base (min dst.len x.len) cap s' := by
  have hp : CsPre (cumSumEnv alu dst x) x.base dst.base (min dst.len x.len) := by
    refine ⟨rfl, ?_, ?_, ov⟩
    · intro i hi; exact Sl.has_of (show i < x.len by omega)
    · intro i hi; exact Sl.has_of (show i < dst.len by omega)
  refine run_unique ?_
  rw [cumSum64_form]
  obtain ⟨a, ha, a1, a2, a3, a4, a5⟩ : ∃ a : St R, execs (cumSumEnv alu dst x)
      [.argQ 0 .DI, .argQ 8 .CX, .argQ 24 .SI] s = some a ∧ a.r .SI = x.base ∧
      a.r .DI = dst.base ∧ a.r .CX = dst.len ∧ a.mem = s.mem ∧ a.frame = s.frame := by
    refine ⟨_, rfl, ?_, ?_, ?_, rfl, rfl⟩ <;> simp [St.setR, hf, cumSumFrame]
  obtain ⟨b, hb, b1, b2, b3, b4⟩ := cmov_exec (cumSumEnv alu dst x) 32 .CX a
  have bn : b.r .CX = min dst.len x.len := by rw [b1, a3, a5, hf]; rfl
  obtain ⟨c, hc, c1, c2, c3, c4, c5⟩ : ∃ c : St R, execs (cumSumEnv alu dst x)
      [.setQ .CX 56, .cmpQ .CX 0] b = some c ∧ c.r = b.r ∧ c.mem = b.mem ∧
      c.frame 56 = b.r .CX ∧ c.frame 16 = b.frame 16 ∧ c.zf = (b.r .CX == 0) :=
    ⟨_, rfl, rfl, rfl, rfl, rfl, rfl⟩
  refine cs_ends hp (t := c) ?_ ?_ ?_ ?_ ?_ ?_ ?_ ?_
  · exact (execs_append (ys := [.cmpArg 32 .CX, .cmovLeArg 32 .CX, .setQ .CX 56, .cmpQ .CX 0]) ha).trans
      ((execs_append (ys := [.setQ .CX 56, .cmpQ .CX 0]) hb).trans hc)
  · rw [c1, b2 _ (by decide), a1]
  · rw [c1, b2 _ (by decide), a2]
  · rw [c1, bn]
  · rw [c5, bn]
  · rw [c3, bn]
  · rw [c4, b3, a5, hf]; rfl
  · rw [c2, b4, a4]

/-! ### Exact arithmetic -/

section exact
variable [CommSemiring R] {alu : Alu R} {f : Nat → R}

theorem csP_sum (hA : Exact alu) (k : Nat) : csP alu f k = (Finset.range (4 * k)).sum f := by
  induction k with
  | zero => simp [csP, hA.zero]
  | succ k ih =>
    rw [show 4 * (k + 1) = 4 * k + 1 + 1 + 1 + 1 by ring, Finset.sum_range_succ,
      Finset.sum_range_succ, Finset.sum_range_succ, Finset.sum_range_succ, csP, ih]
    simp only [hA.add]; ring

theorem csQ_sum (hA : Exact alu) (K r : Nat) : csQ alu f K r = (Finset.range (4 * K + r)).sum f := by
  induction r with
  | zero => exact csP_sum hA K
  | succ r ih => rw [csQ, ih, hA.add, ← Nat.add_assoc, Finset.sum_range_succ]

theorem csT_sum (hA : Exact alu) {n j : Nat} (hj : j < n) :
    csT alu f n j = (Finset.range (j + 1)).sum f := by
  unfold csT
  split
  · have e : j = 4 * (j / 4) + j % 4 := by omega
    have h4 : j % 4 < 4 := Nat.mod_lt _ (by omega)
    obtain ⟨k, hk⟩ : ∃ k, k = j / 4 := ⟨_, rfl⟩
    obtain ⟨r, hr⟩ : ∃ r, r = j % 4 := ⟨_, rfl⟩
    rw [← hk, ← hr] at e ⊢
    rw [← hr] at h4
    subst e
    obtain rfl | rfl | rfl | rfl : r = 0 ∨ r = 1 ∨ r = 2 ∨ r = 3 := by omega
    all_goals
      simp only [csG, csP_sum hA, hA.add, Finset.sum_range_succ, Nat.add_zero, ← Nat.add_assoc]
      ring
  · rw [csQ_sum hA]
    congr 2
    omega

end exact

theorem elems_prefix [CommSemiring R] {es : Nat} {m m' : Nat → R} {x y n : Nat}
    (h : ∀ j, j < n → m' (y + es * j) = (Finset.range (j + 1)).sum fun i => m (x + es * i)) :
    elems es m' y n = (List.range n).map fun j => ((elems es m x n).take (j + 1)).sum := by
  apply List.ext_getElem
  · simp [elems]
  · intro j h1 h2
    have hj : j < n := by simpa [elems] using h1
    simp only [elems, List.getElem_map, List.getElem_range, h j hj, Asm.sum_range_list,
      ← List.map_take, List.take_range, Nat.min_eq_left (show j + 1 ≤ n from hj)]

/-- `CumSum` in exact arithmetic: for every length and every way `dst` and `s` may lie — the same
slice or disjoint — the call ends in exactly one state, having touched only elements of the two
slices; element `j` of `dst` is the sum of the first `j + 1` elements of `s`, nothing else changes,
and the slice returned is `dst` cut to the number of elements computed. -/
theorem cumSum_kernel [CommSemiring R] {alu : Alu R} (hA : Exact alu) {dst x : Sl} {cap : Nat}
    {s : St R} (hf : s.frame = cumSumFrame dst x cap)
    (ov : x.base = dst.base ∨ Apart 8 (min dst.len x.len) x.base dst.base) :
    ∃ s', (∀ t, Call (cumSumEnv alu dst x) cumSum64 s t ↔ t = s') ∧
      elems 8 s'.mem dst.base (min dst.len x.len) = (List.range (min dst.len x.len)).map (fun j =>
        ((elems 8 s.mem x.base (min dst.len x.len)).take (j + 1)).sum) ∧
      OnlyAt 8 dst.base (min dst.len x.len) s.mem s'.mem ∧
      s'.frame 48 = dst.base ∧ s'.frame 56 = min dst.len x.len ∧ s'.frame 64 = cap := by
  obtain ⟨s', h1, h2⟩ := cumSum_done alu hf ov
  refine ⟨s', h1, elems_prefix fun j hj => ?_, h2.mem.2, h2.base, h2.len, h2.cap⟩
  rw [h2.mem.1 j hj]
  exact csT_sum hA hj

/-- The sums from left to right, as the portable loop forms them. -/
def seqSum (alu : Alu R) (f : Nat → R) : Nat → R
  | 0 => f 0
  | j + 1 => alu.op .add (seqSum alu f j) (f (j + 1))

theorem seqSum_sum [CommSemiring R] {alu : Alu R} (hA : Exact alu) (f : Nat → R) (j : Nat) :
    seqSum alu f j = (Finset.range (j + 1)).sum f := by
  induction j with
  | zero => simp [seqSum]
  | succ j ih => rw [seqSum, ih, hA.add, Finset.sum_range_succ _ (j + 1)]

theorem cumSumLoop_done {alu : Alu R} {es dst x n : Nat} {m0 : Nat → R} (hes : 0 < es)
    (ov : SameOrApart es n x dst) :
    ∀ k i m, i + 1 + k = n → Done es dst (seqSum alu fun i => m0 (x + es * i)) m0 (i + 1) m →
      Done es dst (seqSum alu fun i => m0 (x + es * i)) m0 n (cumSumLoop alu es dst x k i m) := by
  intro k
  induction k with
  | zero => intro i m hi h; simp at hi; subst hi; exact h
  | succ k ih =>
    intro i m hi h
    refine ih (i + 1) _ (by omega) (poke_done hes h ?_)
    rw [h.read hes ov (by omega) le_rfl (by omega), h.1 i (by omega)]
    rfl

theorem puregoCumSum_done (alu : Alu R) {es : Nat} (hes : 0 < es) {dst x : Sl} (m : Nat → R)
    (hlen : x.len ≤ dst.len) (ov : SameOrApart es x.len x.base dst.base) :
    ∃ m', puregoCumSum alu es dst x m = some m' ∧
      Done es dst.base (seqSum alu fun i => m (x.base + es * i)) m x.len m' := by
  by_cases h0 : x.len = 0
  · refine ⟨m, by simp [puregoCumSum, h0], ?_⟩
    rw [h0]; exact Done.zero
  · refine ⟨_, by rw [puregoCumSum, if_neg h0, if_pos hlen],
      cumSumLoop_done hes ov _ 0 _ (by omega) ?_⟩
    have := poke_done (y := dst.base) (i := 0) (T := seqSum alu fun i => m (x.base + es * i)) hes
      (Done.zero (m0 := m)) (v := m x.base) (by simp [seqSum])
    simpa using this

/-- In exact arithmetic, and when `dst` is long enough, the assembly leaves the memory the portable
loop leaves. -/
theorem cumSum_eq_purego [CommSemiring R] {alu : Alu R} (hA : Exact alu) {dst x : Sl} {cap : Nat}
    {s t : St R} (hlen : x.len ≤ dst.len) (hf : s.frame = cumSumFrame dst x cap)
    (ov : x.base = dst.base ∨ Apart 8 x.len x.base dst.base)
    (h : Call (cumSumEnv alu dst x) cumSum64 s t) :
    puregoCumSum alu 8 dst x s.mem = some t.mem := by
  have hmin : min dst.len x.len = x.len := by omega
  obtain ⟨s', h1, h2⟩ := cumSum_done alu hf (by rw [hmin]; exact ov)
  obtain rfl := (h1 t).1 h
  rw [hmin] at h2
  have hd : Done 8 dst.base (fun j => (Finset.range (j + 1)).sum fun i => s.mem (x.base + 8 * i))
      s.mem x.len t.mem :=
    ⟨fun j hj => (h2.mem.1 j hj).trans (csT_sum hA hj), h2.mem.2⟩
  obtain ⟨m', e, hm⟩ := puregoCumSum_done alu (show 0 < 8 by omega) s.mem hlen ov
  rw [e]
  refine congrArg some (hm.unique ?_)
  rwa [show seqSum alu (fun i => s.mem (x.base + 8 * i)) = fun j => (Finset.range (j + 1)).sum fun i =>
    s.mem (x.base + 8 * i) from funext fun j => seqSum_sum hA _ j]

/-- With a `dst` shorter than `s` the portable function panics; the assembly fills `dst`. -/
theorem cumSum_short (alu : Alu R) {dst x : Sl} {cap : Nat} {s : St R} (hlen : dst.len < x.len)
    (hf : s.frame = cumSumFrame dst x cap)
    (ov : x.base = dst.base ∨ Apart 8 dst.len x.base dst.base) :
    puregoCumSum alu 8 dst x s.mem = none ∧ ∃ t, Call (cumSumEnv alu dst x) cumSum64 s t := by
  constructor
  · rw [puregoCumSum, if_neg (by omega), if_neg (by omega)]
  · obtain ⟨s', h1, -⟩ := cumSum_done alu hf (by rw [Nat.min_eq_left hlen.le]; exact ov)
    exact ⟨s', (h1 s').2 rfl⟩

/-! ### Arithmetic that rounds -/

/-- Whatever the arithmetic: the first element is not copied but added to zero, and the fourth is
associated as `(s2 + s3) + ((0 + (s0 + s1)))`, where the portable loop has `((s0 + s1) + s2) + s3`. -/
theorem cumSum_order (alu : Alu R) {dst x : Sl} {cap : Nat} {s t : St R} (hx : 4 ≤ x.len)
    (hlen : x.len ≤ dst.len) (hf : s.frame = cumSumFrame dst x cap)
    (ov : Apart 8 x.len x.base dst.base) (h : Call (cumSumEnv alu dst x) cumSum64 s t) :
    t.mem dst.base = alu.op .add (s.mem x.base) alu.zero ∧
    t.mem (dst.base + 24) = alu.op .add
      (alu.op .add (s.mem (x.base + 16)) (s.mem (x.base + 24)))
      (alu.op .add alu.zero (alu.op .add (s.mem x.base) (s.mem (x.base + 8)))) ∧
    ∃ m, puregoCumSum alu 8 dst x s.mem = some m ∧ m dst.base = s.mem x.base ∧
      m (dst.base + 24) = alu.op .add (alu.op .add (alu.op .add (s.mem x.base)
        (s.mem (x.base + 8))) (s.mem (x.base + 16))) (s.mem (x.base + 24)) := by
  have hmin : min dst.len x.len = x.len := by omega
  obtain ⟨s', h1, h2⟩ := cumSum_done alu hf (by rw [hmin]; exact .inr ov)
  obtain rfl := (h1 t).1 h
  rw [hmin] at h2
  obtain ⟨m', e, hm⟩ := puregoCumSum_done alu (show 0 < 8 by omega) s.mem hlen (.inr ov)
  have h0 := h2.mem.1 0 (by omega)
  have h3 := h2.mem.1 3 (by omega)
  rw [csT, if_pos (by omega)] at h0 h3
  exact ⟨h0, h3, m', e, hm.1 0 (by omega), hm.1 3 (by omega)⟩

/-! ### Cases -/

open Verif.Asm (intAlu intAlu_exact)

/-- Seven elements at 16, 24, …, 64, summed into 800, 808, …. -/
example : ∃ s', (∀ t, Call (cumSumEnv intAlu ⟨800, 9⟩ ⟨16, 7⟩) cumSum64
      (demoSt (cumSumFrame ⟨800, 9⟩ ⟨16, 7⟩ 10)) t ↔ t = s') ∧
    elems 8 s'.mem 800 7 = [16, 40, 72, 112, 160, 216, 280] ∧
    OnlyAt 8 800 7 (fun a => (a : Int)) s'.mem ∧
    s'.frame 48 = 800 ∧ s'.frame 56 = 7 ∧ s'.frame 64 = 10 :=
  cumSum_kernel intAlu_exact (dst := ⟨800, 9⟩) (x := ⟨16, 7⟩)
    (s := demoSt (cumSumFrame ⟨800, 9⟩ ⟨16, 7⟩ 10)) rfl
    (.inr fun i j hi hj => by simp at *; omega)

/-- In place. -/
example : ∃ s', (∀ t, Call (cumSumEnv intAlu ⟨16, 5⟩ ⟨16, 5⟩) cumSum64
      (demoSt (cumSumFrame ⟨16, 5⟩ ⟨16, 5⟩ 5)) t ↔ t = s') ∧
    elems 8 s'.mem 16 5 = [16, 40, 72, 112, 160] ∧ OnlyAt 8 16 5 (fun a => (a : Int)) s'.mem ∧
    s'.frame 48 = 16 ∧ s'.frame 56 = 5 ∧ s'.frame 64 = 5 :=
  cumSum_kernel intAlu_exact (dst := ⟨16, 5⟩) (x := ⟨16, 5⟩)
    (s := demoSt (cumSumFrame ⟨16, 5⟩ ⟨16, 5⟩ 5)) rfl (.inl rfl)

/-- Integers kept at or below 100, as floats are kept at or below their largest value. -/
def satAlu : Alu Int :=
  { intAlu with op := fun o a b => match o with
                                   | .add => min 100 (a + b)
                                   | o => intAlu.op o a b }

/-- A state on which the assembly and the portable loop differ under such arithmetic, although its
addition is commutative and has the zero: 50, 0, 80, −60 sum to 70 in one and to 40 in the other. -/
def satSt : St Int :=
  { demoSt (cumSumFrame ⟨800, 4⟩ ⟨0, 4⟩ 4) with
    mem := fun a => if a = 0 then 50 else if a = 16 then 80 else if a = 24 then -60 else 0 }

theorem cumSum_not_purego : (∀ a b, satAlu.op .add a b = satAlu.op .add b a) ∧
    ∃ t, Call (cumSumEnv satAlu ⟨800, 4⟩ ⟨0, 4⟩) cumSum64 satSt t ∧
      puregoCumSum satAlu 8 ⟨800, 4⟩ ⟨0, 4⟩ satSt.mem ≠ some t.mem := by
  refine ⟨fun a b => by simp [satAlu, Int.add_comm], ?_⟩
  have ov : Apart 8 4 0 800 := fun i j hi hj => by omega
  obtain ⟨t, h1, -⟩ := cumSum_done satAlu (dst := ⟨800, 4⟩) (x := ⟨0, 4⟩) (cap := 4) (s := satSt) rfl
    (.inr ov)
  have ht := (h1 t).2 rfl
  obtain ⟨-, h3, m, e, -, hm⟩ := cumSum_order satAlu (by decide) (by decide) rfl ov ht
  refine ⟨t, ht, fun h => ?_⟩
  rw [e] at h
  obtain rfl := Option.some.inj h
  have h4 := h3.symm.trans hm
  exact absurd h4 (by decide)

end Verif.Gonum
