/-
The vector functions of mat/internal/matfuncs on amd64 (C58): every one of the 28 assembly routines
ends, touches no memory outside its slices, and computes the elementwise result, the sum or the dot
product; the portable loops give the same.
-/
import Verif.Lemmas.AsmRed
import Verif.Model.MatFuncs
import Verif.Spec.Kernels
set_option autoImplicit false
set_option linter.unusedSimpArgs false
set_option maxRecDepth 10000

namespace Verif.Asm

open Verif.Spec.Kernels

variable {R : Type}

/-! ### Auxiliary facts -/

theorem Sl.has_of {es : Nat} {x : Sl} {i : Nat} (h : i < x.len) :
    x.has es (x.base + es * i) = true := by
  simp only [Sl.has, List.any_eq_true, List.mem_range]
  exact ⟨i, h, by simp⟩

theorem elems_zip {es : Nat} {m m' : Nat → R} {x1 x2 y n : Nat} {f : R → R → R}
    (h : ∀ j, j < n → m' (y + es * j) = f (m (x1 + es * j)) (m (x2 + es * j))) :
    elems es m' y n = List.zipWith f (elems es m x1 n) (elems es m x2 n) := by
  apply List.ext_getElem <;> simp [elems]
  exact fun i hi => h i hi

theorem elems_map {es : Nat} {m m' : Nat → R} {x y n : Nat} {f : R → R}
    (h : ∀ j, j < n → m' (y + es * j) = f (m (x + es * j))) :
    elems es m' y n = (elems es m x n).map f := by
  apply List.ext_getElem <;> simp [elems]
  exact fun i hi => h i hi

theorem sum_range_list [AddCommMonoid R] (f : Nat → R) (n : Nat) :
    (Finset.range n).sum f = ((List.range n).map f).sum := by
  induction n with
  | zero => simp
  | succ n ih => simp [Finset.sum_range_succ, List.range_succ, ih]

theorem elems_dot {es : Nat} [AddCommMonoid R] [Mul R] (m : Nat → R) (x1 x2 n : Nat) :
    (Finset.range n).sum (fun j => m (x1 + es * j) * m (x2 + es * j)) =
      (List.zipWith (· * ·) (elems es m x1 n) (elems es m x2 n)).sum := by
  rw [sum_range_list]
  congr 1
  apply List.ext_getElem <;> simp [elems]

theorem Sz.bytes_cases (sz : Sz) : sz.bytes = 4 ∨ sz.bytes = 8 := by cases sz <;> simp [Sz.bytes]

theorem Sz.bytes_pos (sz : Sz) : 0 < sz.bytes := by cases sz <;> simp [Sz.bytes]

/-! ### The transcribed routines have the general forms -/

def zipCode (o : Arith) (avx : Bool) : Sz → List Line
  | .f32 => if avx then binAVX 4 (o == .add) o else binSSE32 o
  | .f64 => if avx then binAVX 8 (o == .add) o else binSSE64 o

def constCodeOf (o : Arith) (avx : Bool) (sz : Sz) : List Line :=
  constCode sz.bytes avx o (if avx then .y else .x)

def redCode (dot : Bool) (avx : Bool) : Sz → List Line
  | .f32 => if avx then redAVX 4 dot else redSSE32 dot
  | .f64 => if avx then redAVX 8 dot else redSSE64 dot

theorem addFn_form (cpu : Cpu) (sz : Sz) : addFn cpu sz = zipCode .add cpu.avx sz := by
  rcases cpu with ⟨_ | _, _, _, _⟩ <;> cases sz <;> rfl

theorem subFn_form (cpu : Cpu) (sz : Sz) : subFn cpu sz = zipCode .sub cpu.avx sz := by
  rcases cpu with ⟨_ | _, _, _, _⟩ <;> cases sz <;> rfl

theorem divFn_form (cpu : Cpu) (sz : Sz) : divFn cpu sz = zipCode .div cpu.avx sz := by
  rcases cpu with ⟨_ | _, _, _, _⟩ <;> cases sz <;> rfl

theorem addConstFn_form (cpu : Cpu) (sz : Sz) :
    addConstFn cpu sz = constCodeOf .add cpu.avx2 sz := by
  rcases cpu with ⟨_, _ | _, _, _⟩ <;> cases sz <;> rfl

theorem mulConstFn_form (cpu : Cpu) (sz : Sz) :
    mulConstFn cpu sz = constCodeOf .mul cpu.avx2 sz := by
  rcases cpu with ⟨_, _ | _, _, _⟩ <;> cases sz <;> rfl

theorem dotProdFn_form (cpu : Cpu) (sz : Sz) :
    dotProdFn cpu sz = redCode true (cpu.avx && cpu.fma) sz := by
  rcases cpu with ⟨_ | _, _, _ | _, _⟩ <;> cases sz <;> rfl

theorem sumFn_form (cpu : Cpu) (sz : Sz) : sumFn cpu sz = redCode false cpu.avx sz := by
  rcases cpu with ⟨_ | _, _, _, _⟩ <;> cases sz <;> rfl

/-! ### Elementwise routines -/

/-- The call ends in exactly one state; there `y` holds `op` of the elements of `x1` and `x2`, and
everything else is as before. -/
def ZipCall (sz : Sz) (alu : Alu R) (code : List Line) (op : R → R → R) (x1 x2 y : Sl)
    (s : St R) : Prop :=
  ∃ s', (∀ t, Call (frame3 sz.bytes alu x1 x2 y) code s t ↔ t = s') ∧
    elems sz.bytes s'.mem y.base x1.len =
      List.zipWith op (elems sz.bytes s.mem x1.base x1.len) (elems sz.bytes s.mem x2.base x1.len) ∧
    OnlyAt sz.bytes y.base x1.len s.mem s'.mem

theorem zip_done {E : Env R} {sz : Sz} (o : Arith) (avx : Bool) {x1 x2 y n : Nat}
    (hsz : E.es = sz.bytes) (ha : BinArgs E x1 x2 y n) (hp : BinPre E x1 x2 y n)
    (hal : x2 % sz.bytes = 0) (s : St R) :
    ∃ s', (∀ t, Call E (zipCode o avx sz) s t ↔ t = s') ∧
      Done E.es y (fun j => E.alu.op o (s.mem (x1 + E.es * j)) (s.mem (x2 + E.es * j))) s.mem n
        s'.mem := by
  have : ∃ s', Call E (zipCode o avx sz) s s' ∧
      Done E.es y (fun j => E.alu.op o (s.mem (x1 + E.es * j)) (s.mem (x2 + E.es * j))) s.mem n
        s'.mem := by
    cases sz <;> cases avx
    · exact binSSE32_correct ha hp hsz hal s
    · have := binAVX_correct (o := o) ha hp (.inl hsz) (o == .add) s
      rw [show binAVX E.es (o == .add) o = binAVX 4 (o == .add) o by rw [hsz]; rfl] at this
      exact this
    · exact binSSE64_correct ha hp hsz hal s
    · have := binAVX_correct (o := o) ha hp (.inr hsz) (o == .add) s
      rw [show binAVX E.es (o == .add) o = binAVX 8 (o == .add) o by rw [hsz]; rfl] at this
      exact this
  obtain ⟨s', h1, h2⟩ := this
  exact ⟨s', fun t => ⟨fun h => Run.det h h1, fun h => h ▸ h1⟩, h2⟩

theorem frame3_args (es : Nat) (alu : Alu R) (x1 x2 y : Sl) :
    BinArgs (frame3 es alu x1 x2 y) x1.base x2.base y.base x1.len := ⟨rfl, rfl, rfl, rfl⟩

theorem frame3_pre {es : Nat} (hes : 0 < es) (alu : Alu R) {x1 x2 y : Sl}
    (h2 : x1.len ≤ x2.len) (hy : x1.len ≤ y.len)
    (ov1 : x1.base = y.base ∨ Apart es x1.len x1.base y.base)
    (ov2 : x2.base = y.base ∨ Apart es x1.len x2.base y.base) :
    BinPre (frame3 es alu x1 x2 y) x1.base x2.base y.base x1.len where
  es := hes
  rd1 := fun i hi => by simp [frame3, Sl.has_of hi]
  rd2 := fun i hi => by
    simp [frame3, Sl.has_of (show i < x2.len from lt_of_lt_of_le hi h2)]
  wr := fun i hi => Sl.has_of (lt_of_lt_of_le hi hy)
  ov1 := ov1
  ov2 := ov2

theorem zipCall_of (sz : Sz) (alu : Alu R) (o : Arith) (avx : Bool) {x1 x2 y : Sl}
    (h2 : x1.len ≤ x2.len) (hy : x1.len ≤ y.len) (hal : x2.base % sz.bytes = 0)
    (ov1 : x1.base = y.base ∨ Apart sz.bytes x1.len x1.base y.base)
    (ov2 : x2.base = y.base ∨ Apart sz.bytes x1.len x2.base y.base) (s : St R) :
    ZipCall sz alu (zipCode o avx sz) (alu.op o) x1 x2 y s := by
  obtain ⟨s', h1, h3⟩ := zip_done (sz := sz) o avx rfl (frame3_args sz.bytes alu x1 x2 y)
    (frame3_pre sz.bytes_pos alu h2 hy ov1 ov2) hal s
  exact ⟨s', h1, elems_zip h3.1, h3.2⟩

/-- `Add32`, `Add64` with every choice of the processor features. -/
theorem add_kernel (cpu : Cpu) (sz : Sz) (alu : Alu R) {x1 x2 y : Sl}
    (h2 : x1.len ≤ x2.len) (hy : x1.len ≤ y.len) (hal : x2.base % sz.bytes = 0)
    (ov1 : x1.base = y.base ∨ Apart sz.bytes x1.len x1.base y.base)
    (ov2 : x2.base = y.base ∨ Apart sz.bytes x1.len x2.base y.base) (s : St R) :
    ZipCall sz alu (addFn cpu sz) (alu.op .add) x1 x2 y s := by
  rw [addFn_form]; exact zipCall_of sz alu .add _ h2 hy hal ov1 ov2 s

/-- `Sub32`, `Sub64`. -/
theorem sub_kernel (cpu : Cpu) (sz : Sz) (alu : Alu R) {x1 x2 y : Sl}
    (h2 : x1.len ≤ x2.len) (hy : x1.len ≤ y.len) (hal : x2.base % sz.bytes = 0)
    (ov1 : x1.base = y.base ∨ Apart sz.bytes x1.len x1.base y.base)
    (ov2 : x2.base = y.base ∨ Apart sz.bytes x1.len x2.base y.base) (s : St R) :
    ZipCall sz alu (subFn cpu sz) (alu.op .sub) x1 x2 y s := by
  rw [subFn_form]; exact zipCall_of sz alu .sub _ h2 hy hal ov1 ov2 s

/-- `Div32`, `Div64`. -/
theorem div_kernel (cpu : Cpu) (sz : Sz) (alu : Alu R) {x1 x2 y : Sl}
    (h2 : x1.len ≤ x2.len) (hy : x1.len ≤ y.len) (hal : x2.base % sz.bytes = 0)
    (ov1 : x1.base = y.base ∨ Apart sz.bytes x1.len x1.base y.base)
    (ov2 : x2.base = y.base ∨ Apart sz.bytes x1.len x2.base y.base) (s : St R) :
    ZipCall sz alu (divFn cpu sz) (alu.op .div) x1 x2 y s := by
  rw [divFn_form]; exact zipCall_of sz alu .div _ h2 hy hal ov1 ov2 s

/-! ### Routines with a constant -/

/-- The call ends in exactly one state; there `y` holds `op` of the elements of `x` and `c`, and
everything else is as before. -/
def ConstCall (sz : Sz) (alu : Alu R) (code : List Line) (op : R → R → R) (c : R) (x y : Sl)
    (s : St R) : Prop :=
  ∃ s', (∀ t, Call (frameC sz.bytes alu c x y) code s t ↔ t = s') ∧
    elems sz.bytes s'.mem y.base x.len = (elems sz.bytes s.mem x.base x.len).map (op · c) ∧
    OnlyAt sz.bytes y.base x.len s.mem s'.mem

theorem const_done (sz : Sz) (alu : Alu R) (o : Arith) (avx : Bool) {c : R} {x y : Sl}
    (hcomm : ∀ a, alu.op o a c = alu.op o c a) (hy : x.len ≤ y.len)
    (ov : x.base = y.base ∨ Apart sz.bytes x.len x.base y.base) (s : St R) :
    ∃ s', (∀ t, Call (frameC sz.bytes alu c x y) (constCodeOf o avx sz) s t ↔ t = s') ∧
      Done sz.bytes y.base (fun j => alu.op o (s.mem (x.base + sz.bytes * j)) c) s.mem x.len
        s'.mem := by
  have hp : ConstPre (frameC sz.bytes alu c x y) o x.base y.base x.len :=
    ⟨sz.bytes_pos, fun i hi => Sl.has_of hi, fun i hi => Sl.has_of (lt_of_lt_of_le hi hy), ov,
      hcomm⟩
  obtain ⟨s', h1, h2⟩ := constCode_correct (w := if avx then .y else .x) (vex := avx) (o := o)
    (E := frameC sz.bytes alu c x y) (x := x.base) (y := y.base) (n := x.len) ⟨rfl, rfl, rfl⟩ hp
    sz.bytes_cases (by cases avx <;> simp) s
  refine ⟨s', fun t => ⟨fun h => Run.det h h1, fun h => h ▸ h1⟩, fun j hj => ?_, h2.2⟩
  exact (h2.1 j hj).trans (hcomm _).symm

/-- `AddConst32`, `AddConst64`.  The AVX code computes `c + x`, the portable code `x + c`: addition
must be commutative, as it is for floats. -/
theorem addConst_kernel (cpu : Cpu) (sz : Sz) (alu : Alu R) {c : R} {x y : Sl}
    (hcomm : ∀ a, alu.op .add a c = alu.op .add c a) (hy : x.len ≤ y.len)
    (ov : x.base = y.base ∨ Apart sz.bytes x.len x.base y.base) (s : St R) :
    ConstCall sz alu (addConstFn cpu sz) (alu.op .add) c x y s := by
  rw [addConstFn_form]
  obtain ⟨s', h1, h2⟩ := const_done sz alu .add cpu.avx2 hcomm hy ov s
  exact ⟨s', h1, elems_map h2.1, h2.2⟩

/-- `MulConst32`, `MulConst64`. -/
theorem mulConst_kernel (cpu : Cpu) (sz : Sz) (alu : Alu R) {c : R} {x y : Sl}
    (hcomm : ∀ a, alu.op .mul a c = alu.op .mul c a) (hy : x.len ≤ y.len)
    (ov : x.base = y.base ∨ Apart sz.bytes x.len x.base y.base) (s : St R) :
    ConstCall sz alu (mulConstFn cpu sz) (alu.op .mul) c x y s := by
  rw [mulConstFn_form]
  obtain ⟨s', h1, h2⟩ := const_done sz alu .mul cpu.avx2 hcomm hy ov s
  exact ⟨s', h1, elems_map h2.1, h2.2⟩

/-! ### Reductions, in exact arithmetic -/

section
variable [AddCommMonoid R] [Mul R]

theorem red_done {E : Env R} {sz : Sz} (dot avx : Bool) {x1 x2 n : Nat}
    (hsz : E.es = sz.bytes) (ha : RedArgs E dot x1 x2 n) (hp : RedPre E dot x1 x2 n)
    (hal : (if dot then x2 else x1) % sz.bytes = 0) (s : St R) :
    ∃ s', (∀ t, Call E (redCode dot avx sz) s t ↔ t = s') ∧
      RedPost sz.bytes dot x1 x2 n s.mem s' := by
  have : ∃ s', Call E (redCode dot avx sz) s s' ∧ RedPost sz.bytes dot x1 x2 n s.mem s' := by
    cases sz <;> cases avx
    · have := redSSE32_correct ha hp hsz hal s
      rwa [show E.es = Sz.f32.bytes from hsz] at this
    · have := redAVX_correct ha hp (.inl hsz) s
      rw [show redAVX E.es dot = redAVX 4 dot by rw [hsz]; rfl,
        show E.es = Sz.f32.bytes from hsz] at this
      exact this
    · have := redSSE64_correct ha hp hsz hal s
      rwa [show E.es = Sz.f64.bytes from hsz] at this
    · have := redAVX_correct ha hp (.inr hsz) s
      rw [show redAVX E.es dot = redAVX 8 dot by rw [hsz]; rfl,
        show E.es = Sz.f64.bytes from hsz] at this
      exact this
  obtain ⟨s', h1, h2⟩ := this
  exact ⟨s', fun t => ⟨fun h => Run.det h h1, fun h => h ▸ h1⟩, h2⟩

/-- `DotProd32`, `DotProd64`: the call ends in exactly one state; the result is the dot product,
and the memory is as before. -/
theorem dotProd_kernel (cpu : Cpu) (sz : Sz) (alu : Alu R) (hex : Exact alu) {x1 x2 : Sl}
    (h2 : x1.len ≤ x2.len) (hal : x2.base % sz.bytes = 0) (s : St R) :
    ∃ s', (∀ t, Call (frame2 sz.bytes alu x1 x2) (dotProdFn cpu sz) s t ↔ t = s') ∧
      s'.out = some (List.zipWith (· * ·) (elems sz.bytes s.mem x1.base x1.len)
        (elems sz.bytes s.mem x2.base x1.len)).sum ∧
      s'.mem = s.mem := by
  rw [dotProdFn_form]
  obtain ⟨s', h1, h3, h4⟩ := red_done (sz := sz) (E := frame2 sz.bytes alu x1 x2)
    (x1 := x1.base) (x2 := x2.base) (n := x1.len) true (cpu.avx && cpu.fma) rfl
    ⟨rfl, fun _ => rfl, rfl⟩
    ⟨hex, fun i hi => by simp [frame2, Sl.has_of hi], fun _ i hi => by
      simp [frame2, Sl.has_of (show i < x2.len from lt_of_lt_of_le hi h2)]⟩ hal s
  refine ⟨s', h1, ?_, h4⟩
  rw [h3, ← elems_dot]
  exact congrArg some (Finset.sum_congr rfl fun j _ => by simp [redTerm])

/-- `Sum32`, `Sum64`. -/
theorem sum_kernel (cpu : Cpu) (sz : Sz) (alu : Alu R) (hex : Exact alu) {x : Sl}
    (hal : x.base % sz.bytes = 0) (s : St R) :
    ∃ s', (∀ t, Call (frame1 sz.bytes alu x) (sumFn cpu sz) s t ↔ t = s') ∧
      s'.out = some (elems sz.bytes s.mem x.base x.len).sum ∧ s'.mem = s.mem := by
  rw [sumFn_form]
  obtain ⟨s', h1, h3, h4⟩ := red_done (sz := sz) (E := frame1 sz.bytes alu x)
    (x1 := x.base) (x2 := 0) (n := x.len) false cpu.avx rfl
    ⟨rfl, by simp, rfl⟩ ⟨hex, fun i hi => Sl.has_of hi, by simp⟩ hal s
  refine ⟨s', h1, ?_, h4⟩
  rw [h3, elems, ← sum_range_list]
  exact congrArg some (Finset.sum_congr rfl fun j _ => by simp [redTerm])

end

/-! ### The portable loops give the same -/

theorem poke_done {es y i : Nat} {T m0 m : Nat → R} (hes : 0 < es) (hd : Done es y T m0 i m)
    {v : R} (hv : v = T i) : Done es y T m0 (i + 1) (poke m (y + es * i) v) :=
  hd.write hes (fun j hj => by obtain rfl : j = 0 := by omega
                               simp [poke, hv])
    (fun a ha => by simp [poke, show a ≠ y + es * i from by simpa using ha 0 (by omega)])

theorem Done.unique {es y n : Nat} {T m0 m m' : Nat → R} (h : Done es y T m0 n m)
    (h' : Done es y T m0 n m') : m = m' := by
  funext a
  by_cases ha : ∃ j, j < n ∧ a = y + es * j
  · obtain ⟨j, hj, rfl⟩ := ha
    rw [h.1 j hj, h'.1 j hj]
  · have : ∀ j, j < n → a ≠ y + es * j := fun j hj he => ha ⟨j, hj, he⟩
    rw [h.2 a this, h'.2 a this]

theorem zipLoop_done {op : R → R → R} {es x1 x2 y n : Nat} {m0 : Nat → R} (hes : 0 < es)
    (ov1 : SameOrApart es n x1 y) (ov2 : SameOrApart es n x2 y) :
    ∀ k i m, i + k = n →
      Done es y (fun j => op (m0 (x1 + es * j)) (m0 (x2 + es * j))) m0 i m →
      Done es y (fun j => op (m0 (x1 + es * j)) (m0 (x2 + es * j))) m0 n
        (zipLoop op es x1 x2 y k i m) := by
  intro k
  induction k with
  | zero => intro i m hi h; simp at hi; subst hi; exact h
  | succ k ih =>
    intro i m hi h
    refine ih (i + 1) _ (by omega) (poke_done hes h ?_)
    rw [h.read hes ov1 (by omega) le_rfl (by omega), h.read hes ov2 (by omega) le_rfl (by omega)]

theorem constLoop_done {op : R → R → R} {c : R} {es x y n : Nat} {m0 : Nat → R} (hes : 0 < es)
    (ov : SameOrApart es n x y) :
    ∀ k i m, i + k = n → Done es y (fun j => op (m0 (x + es * j)) c) m0 i m →
      Done es y (fun j => op (m0 (x + es * j)) c) m0 n (constLoopGo op c es x y k i m) := by
  intro k
  induction k with
  | zero => intro i m hi h; simp at hi; subst hi; exact h
  | succ k ih =>
    intro i m hi h
    refine ih (i + 1) _ (by omega) (poke_done hes h ?_)
    rw [h.read hes ov (by omega) le_rfl (by omega)]

theorem purego_of_done {op : R → R → R} {es : Nat} {x1 x2 y : Sl} {m m' : Nat → R} (hes : 0 < es)
    (h2 : x1.len ≤ x2.len) (hy : x1.len ≤ y.len)
    (ov1 : SameOrApart es x1.len x1.base y.base) (ov2 : SameOrApart es x1.len x2.base y.base)
    (h : Done es y.base (fun j => op (m (x1.base + es * j)) (m (x2.base + es * j))) m x1.len m') :
    puregoZip op es x1 x2 y m = some m' := by
  simp only [puregoZip]
  split
  · rename_i h0
    rw [h0] at h
    rw [h.unique Done.zero]
  · rw [if_neg (by omega), if_neg (by omega)]
    exact congrArg some ((zipLoop_done hes ov1 ov2 _ 0 m (by omega) Done.zero).unique h)

/-- Add, Sub, Div: the assembly and the portable loop leave the same memory, bit for bit (no
assumption on the arithmetic). -/
theorem zip_eq_purego (cpu : Cpu) (sz : Sz) (alu : Alu R) {x1 x2 y : Sl}
    (h2 : x1.len ≤ x2.len) (hy : x1.len ≤ y.len) (hal : x2.base % sz.bytes = 0)
    (ov1 : x1.base = y.base ∨ Apart sz.bytes x1.len x1.base y.base)
    (ov2 : x2.base = y.base ∨ Apart sz.bytes x1.len x2.base y.base) (s t : St R) :
    (Call (frame3 sz.bytes alu x1 x2 y) (addFn cpu sz) s t →
      puregoZip (alu.op .add) sz.bytes x1 x2 y s.mem = some t.mem) ∧
    (Call (frame3 sz.bytes alu x1 x2 y) (subFn cpu sz) s t →
      puregoZip (alu.op .sub) sz.bytes x1 x2 y s.mem = some t.mem) ∧
    (Call (frame3 sz.bytes alu x1 x2 y) (divFn cpu sz) s t →
      puregoZip (alu.op .div) sz.bytes x1 x2 y s.mem = some t.mem) := by
  have key : ∀ o, Call (frame3 sz.bytes alu x1 x2 y) (zipCode o cpu.avx sz) s t →
      puregoZip (alu.op o) sz.bytes x1 x2 y s.mem = some t.mem := by
    intro o h
    obtain ⟨s', h1, h3⟩ := zip_done (sz := sz) o cpu.avx rfl (frame3_args sz.bytes alu x1 x2 y)
      (frame3_pre sz.bytes_pos alu h2 hy ov1 ov2) hal s
    obtain rfl := (h1 t).1 h
    exact purego_of_done sz.bytes_pos h2 hy ov1 ov2 h3
  rw [addFn_form, subFn_form, divFn_form]
  exact ⟨key _, key _, key _⟩

/-- AddConst, MulConst: the same, for a commutative operation. -/
theorem const_eq_purego (cpu : Cpu) (sz : Sz) (alu : Alu R) {c : R} {x y : Sl}
    (hy : x.len ≤ y.len) (ov : x.base = y.base ∨ Apart sz.bytes x.len x.base y.base)
    (s t : St R) :
    ((∀ a, alu.op .add a c = alu.op .add c a) →
      Call (frameC sz.bytes alu c x y) (addConstFn cpu sz) s t →
      puregoConst (alu.op .add) c sz.bytes x y s.mem = some t.mem) ∧
    ((∀ a, alu.op .mul a c = alu.op .mul c a) →
      Call (frameC sz.bytes alu c x y) (mulConstFn cpu sz) s t →
      puregoConst (alu.op .mul) c sz.bytes x y s.mem = some t.mem) := by
  have key : ∀ o, (∀ a, alu.op o a c = alu.op o c a) →
      Call (frameC sz.bytes alu c x y) (constCodeOf o cpu.avx2 sz) s t →
      puregoConst (alu.op o) c sz.bytes x y s.mem = some t.mem := by
    intro o hc h
    obtain ⟨s', h1, h3⟩ := const_done sz alu o cpu.avx2 hc hy ov s
    obtain rfl := (h1 t).1 h
    simp only [puregoConst]
    split
    · rename_i h0
      rw [h0] at h3
      rw [h3.unique Done.zero]
    · rw [if_neg (by omega)]
      exact congrArg some ((constLoop_done sz.bytes_pos ov _ 0 s.mem (by omega)
        Done.zero).unique h3)
  rw [addConstFn_form, mulConstFn_form]
  exact ⟨key _, key _⟩

theorem dotLoop_eq [AddCommMonoid R] [Mul R] {alu : Alu R} (hex : Exact alu) (es x1 x2 : Nat) (m : Nat → R) :
    ∀ k i y, dotLoop alu es x1 x2 m k i y =
      y + ((List.range k).map fun j => m (x1 + es * (i + j)) * m (x2 + es * (i + j))).sum := by
  intro k
  induction k with
  | zero => intro i y; simp [dotLoop]
  | succ k ih =>
    intro i y
    rw [dotLoop, ih, List.range_succ_eq_map]
    simp only [hex.add, hex.mul, List.map_cons, List.sum_cons, List.map_map, ← add_assoc (G := R),
      Nat.add_zero]
    congr 2
    apply List.map_congr_left
    intro j _
    simp only [Function.comp, Nat.succ_eq_add_one]
    rw [show i + 1 + j = i + (j + 1) by omega]

theorem sumLoop_eq [AddCommMonoid R] [Mul R] {alu : Alu R} (hex : Exact alu) (es x : Nat) (m : Nat → R) :
    ∀ k i y, sumLoop alu es x m k i y =
      y + ((List.range k).map fun j => m (x + es * (i + j))).sum := by
  intro k
  induction k with
  | zero => intro i y; simp [sumLoop]
  | succ k ih =>
    intro i y
    rw [sumLoop, ih, List.range_succ_eq_map]
    simp only [hex.add, List.map_cons, List.sum_cons, List.map_map, ← add_assoc (G := R),
      Nat.add_zero]
    congr 2
    apply List.map_congr_left
    intro j _
    simp only [Function.comp, Nat.succ_eq_add_one]
    rw [show i + 1 + j = i + (j + 1) by omega]

/-- DotProd, Sum: the assembly and the portable loop give the same result in exact arithmetic (the
order of the additions differs, so with rounding the results can differ). -/
theorem red_eq_purego [AddCommMonoid R] [Mul R] (cpu : Cpu) (sz : Sz) (alu : Alu R) (hex : Exact alu)
    {x1 x2 : Sl} (h2 : x1.len ≤ x2.len) (hal1 : x1.base % sz.bytes = 0)
    (hal2 : x2.base % sz.bytes = 0) (s t : St R) :
    (Call (frame2 sz.bytes alu x1 x2) (dotProdFn cpu sz) s t →
      t.out = puregoDot alu sz.bytes x1 x2 s.mem) ∧
    (Call (frame1 sz.bytes alu x1) (sumFn cpu sz) s t →
      t.out = some (puregoSum alu sz.bytes x1 s.mem)) := by
  constructor
  · intro h
    obtain ⟨s', h1, h3, -⟩ := dotProd_kernel cpu sz alu hex h2 hal2 s
    obtain rfl := (h1 t).1 h
    rw [h3, puregoDot]
    split
    · rename_i h0; simp [h0, elems, hex.zero]
    · rw [if_neg (by omega), dotLoop_eq hex, ← elems_dot, sum_range_list]
      simp [hex.zero]
  · intro h
    obtain ⟨s', h1, h3, -⟩ := sum_kernel cpu sz alu hex hal1 s
    obtain rfl := (h1 t).1 h
    rw [h3, puregoSum, sumLoop_eq hex]
    simp [hex.zero, elems]

/-! ### Where the assembly and the portable loops part -/

/-- The portable functions check the lengths; the assembly does not.  With a `y` (or an `x2`)
shorter than `x1`, the portable functions panic, while the assembly, on a machine that does not
stop it, reads `x1.len` elements from `x2.base` on and writes as many from `y.base` on. -/
theorem zip_no_bounds_check (cpu : Cpu) (sz : Sz) (alu : Alu R) {x1 x2 y : Sl}
    (hshort : y.len < x1.len ∨ x2.len < x1.len) (hal : x2.base % sz.bytes = 0)
    (ov1 : x1.base = y.base ∨ Apart sz.bytes x1.len x1.base y.base)
    (ov2 : x2.base = y.base ∨ Apart sz.bytes x1.len x2.base y.base) (s : St R) :
    puregoZip (alu.op .add) sz.bytes x1 x2 y s.mem = none ∧
    ∃ t, Call { frame3 sz.bytes alu x1 x2 y with rd := fun _ => true, wr := fun _ => true }
        (addFn cpu sz) s t ∧
      ∀ i, i < x1.len → t.mem (y.base + sz.bytes * i) =
        alu.op .add (s.mem (x1.base + sz.bytes * i)) (s.mem (x2.base + sz.bytes * i)) := by
  constructor
  · simp only [puregoZip]
    rw [if_neg (by omega)]
    split
    · rfl
    · rw [if_pos (by omega)]
  · rw [addFn_form]
    obtain ⟨s', h1, h3⟩ := zip_done (sz := sz)
      (E := { frame3 sz.bytes alu x1 x2 y with rd := fun _ => true, wr := fun _ => true })
      .add cpu.avx rfl (x1 := x1.base) (x2 := x2.base) (y := y.base) (n := x1.len)
      ⟨rfl, rfl, rfl, rfl⟩
      ⟨sz.bytes_pos, fun _ _ => rfl, fun _ _ => rfl, fun _ _ => rfl, ov1, ov2⟩ hal s
    exact ⟨s', (h1 s').2 rfl, h3.1⟩

/-! ### Instruction sets -/

/-- Every function is only given routines that the processor can execute — on a processor with
SSE3.  (AVX2 and FMA imply AVX on every processor.) -/
theorem routines_supported (cpu : Cpu) (sz : Sz) (h3 : cpu.sse3 = true)
    (h2 : cpu.avx2 = true → cpu.avx = true) :
    ∀ code, code = addFn cpu sz ∨ code = subFn cpu sz ∨ code = divFn cpu sz ∨
      code = addConstFn cpu sz ∨ code = mulConstFn cpu sz ∨ code = dotProdFn cpu sz ∨
      code = sumFn cpu sz → ∀ x ∈ instrs code, cpu.can x = true := by
  rcases cpu with ⟨_ | _, _ | _, _ | _, _ | _⟩ <;> simp at h2 h3 <;> cases sz <;>
    rintro code (rfl | rfl | rfl | rfl | rfl | rfl | rfl) <;>
    rw [← List.all_eq_true] <;> rfl

/-- The elementwise functions need nothing beyond what is asked for. -/
theorem elementwise_supported (cpu : Cpu) (sz : Sz) (h2 : cpu.avx2 = true → cpu.avx = true) :
    ∀ code, code = addFn cpu sz ∨ code = subFn cpu sz ∨ code = divFn cpu sz ∨
      code = addConstFn cpu sz ∨ code = mulConstFn cpu sz →
      ∀ x ∈ instrs code, cpu.can x = true := by
  rcases cpu with ⟨_ | _, _ | _, _ | _, _ | _⟩ <;> simp at h2 <;> cases sz <;>
    rintro code (rfl | rfl | rfl | rfl | rfl) <;>
    rw [← List.all_eq_true] <;> rfl

/-- Sum and DotProd fall back to routines with HADDPS or HADDPD, which a processor with SSE and
SSE2 only cannot execute, although the routines are documented to require SSE and no feature test
guards them. -/
theorem reductions_need_sse3 (cpu : Cpu) (sz : Sz) (ha : cpu.avx = false) (h3 : cpu.sse3 = false) :
    (∃ x ∈ instrs (sumFn cpu sz), cpu.can x = false) ∧
    (∃ x ∈ instrs (dotProdFn cpu sz), cpu.can x = false) := by
  refine ⟨⟨.hadd2 0 0, ?_, by simp [Cpu.can, h3]⟩, ⟨.hadd2 0 0, ?_, by simp [Cpu.can, h3]⟩⟩ <;>
    cases sz <;> simp only [sumFn, dotProdFn, ha, Bool.false_and] <;> decide

/-! ### Concrete cases -/

/-- Integer arithmetic. -/
def intAlu : Alu Int where
  zero := 0
  op := fun o a b => match o with
    | .add => a + b | .sub => a - b | .mul => a * b | .div => a / b
  fma := fun a b c => a * b + c

theorem intAlu_exact : Exact intAlu := ⟨rfl, fun _ _ => rfl, fun _ _ => rfl, fun _ _ _ => rfl⟩

/-- Memory with the value `a * a` at address `a`, registers and flags arbitrary. -/
def demo : St Int := ⟨fun _ => 77, fun _ _ => 99, fun a => (a : Int) * a, true, false, none⟩

/-- `x1 = y`, in place: 1003 elements, an odd number of cells from a 16-byte boundary. -/
example : ZipCall .f32 intAlu (addFn ⟨false, false, false, true⟩ .f32) (· + ·)
    ⟨4, 1003⟩ ⟨8012, 1003⟩ ⟨4, 1003⟩ demo :=
  add_kernel _ .f32 intAlu (by decide) (by decide) (by decide) (.inl rfl)
    (.inr fun i j hi hj => by simp [Sz.bytes] at *; omega) demo

example : ∃ s', (∀ t, Call (frame3 8 intAlu ⟨16, 5⟩ ⟨64, 5⟩ ⟨128, 5⟩)
      (subFn ⟨true, false, false, true⟩ .f64) demo t ↔ t = s') ∧
    elems 8 s'.mem 128 5 = List.zipWith (· - ·) [256, 576, 1024, 1600, 2304]
      [4096, 5184, 6400, 7744, 9216] ∧ OnlyAt 8 128 5 demo.mem s'.mem :=
  sub_kernel ⟨true, false, false, true⟩ .f64 intAlu (x1 := ⟨16, 5⟩) (x2 := ⟨64, 5⟩)
    (y := ⟨128, 5⟩) (by decide) (by decide) (by decide)
    (.inr fun i j hi hj => by simp [Sz.bytes] at *; omega)
    (.inr fun i j hi hj => by simp [Sz.bytes] at *; omega) demo

example : ConstCall .f32 intAlu (mulConstFn ⟨true, true, true, true⟩ .f32) (· * ·) 3
    ⟨0, 300⟩ ⟨0, 300⟩ demo :=
  mulConst_kernel _ .f32 intAlu (fun a => Int.mul_comm a 3) (by decide) (.inl rfl) demo

example : ∃ s', (∀ t, Call (frame2 8 intAlu ⟨16, 3⟩ ⟨40, 3⟩)
      (dotProdFn ⟨true, true, true, true⟩ .f64) demo t ↔ t = s') ∧
    s'.out = some (256 * 1600 + (576 * 2304 + (1024 * 3136 + 0))) ∧ s'.mem = demo.mem :=
  dotProd_kernel ⟨true, true, true, true⟩ .f64 intAlu intAlu_exact (x1 := ⟨16, 3⟩)
    (x2 := ⟨40, 3⟩) (by decide) (by decide) demo

example : ∃ s', (∀ t, Call (frame1 4 intAlu ⟨4, 4⟩) (sumFn ⟨false, false, false, true⟩ .f32) demo t ↔
      t = s') ∧ s'.out = some (16 + (64 + (144 + (256 + 0)))) ∧ s'.mem = demo.mem :=
  sum_kernel ⟨false, false, false, true⟩ .f32 intAlu intAlu_exact (x := ⟨4, 4⟩) (by decide) demo

example : puregoZip (intAlu.op .add) 4 ⟨0, 3⟩ ⟨16, 3⟩ ⟨32, 2⟩ demo.mem = none ∧
    ∃ t, Call { frame3 4 intAlu ⟨0, 3⟩ ⟨16, 3⟩ ⟨32, 2⟩ with
        rd := fun _ => true, wr := fun _ => true } addAVX32 demo t ∧
      ∀ i, i < 3 → t.mem (32 + 4 * i) = demo.mem (0 + 4 * i) + demo.mem (16 + 4 * i) :=
  zip_no_bounds_check ⟨true, true, true, true⟩ .f32 intAlu (.inl (by decide)) (by decide)
    (.inr fun i j hi hj => by simp [Sz.bytes] at *; omega)
    (.inr fun i j hi hj => by simp [Sz.bytes] at *; omega) demo

end Verif.Asm
