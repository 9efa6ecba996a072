import Verif.Props.Head32

set_option autoImplicit false
set_option linter.unusedSimpArgs false

/-!
# C92: calls of an attention head one after the other
-/

namespace Verif.Head32
open Verif.F32 Verif.Asm Verif.Spec Verif.Spec.Kernels Verif.Net32 Verif.Spec.Net32 Verif.Rec32 Verif.Spec.Rec32 Verif.Att32 Verif.Spec.Att32
  Verif.Spec.Head32

variable {M : Machine} {H : Head} {N : Nat} {X : ℝ}

theorem close_top {x u m e : ℝ} (h1 : |x - u| ≤ e) (h2 : |u| ≤ m) : |x| ≤ m + e := by
  have := abs_sub_abs_le_abs_sub x u
  linarith

theorem rows_at {L : Lin} {ts : List (List F32.W)} {m : List F32.W} (h : Rows L X ts m) {j k : Nat} (hj : j < ts.length) (hk : k < L.rows) :
    F32.Finite (m.getD (j * L.rows + k) 0) ∧ |at2 L.rows m j k - lin L (vals (ts.getD j [])) k| ≤ linErr L X ∧
      |lin L (vals (ts.getD j [])) k| ≤ mag L X := by
  have := h.2 j _ (List.getElem?_eq_getElem hj) k hk
  rw [List.getD_eq_getElem _ _ hj]
  exact this

theorem rows_mem {L : Lin} {ts : List (List F32.W)} {m : List F32.W} (h : Rows L X ts m) : ∀ v ∈ m, F32.Finite v ∧ |val v| ≤ mag L X + linErr L X := by
  intro v hv
  obtain ⟨i, hi, rfl⟩ := List.mem_iff_getElem.mp hv
  have hi' : i < ts.length * L.rows := h.1 ▸ hi
  have hr : 0 < L.rows := Nat.pos_of_ne_zero fun h0 => by rw [h0] at hi'; omega
  have h1 : i / L.rows < ts.length := Nat.div_lt_of_lt_mul (by rw [Nat.mul_comm]; exact hi')
  have h2 : i % L.rows < L.rows := Nat.mod_lt _ hr
  obtain ⟨f, e, g⟩ := rows_at h h1 h2
  unfold at2 at e
  rw [Nat.mul_comm, Nat.div_add_mod, List.getD_eq_getElem _ _ hi] at f e
  exact ⟨f, close_top e g⟩

/-- The cache holds the keys and values of the vectors `ts`. -/
def Holds (H : Head) (X : ℝ) (ts : List (List F32.W)) (C : Cache) : Prop := C.n = ts.length ∧ Rows H.key X ts C.k ∧ Rows H.value X ts C.v

theorem fits_mem (hH : Spec.Head32.Fits H N X) {ts : List (List F32.W)} {C : Cache} (hC : Holds H X ts C) (h0 : ts ≠ []) (hN : ts.length ≤ N) :
    Spec.Att32.Fits ⟨C.n, H.key.rows, H.value.rows, C.k, C.v, H.c⟩ (H.key.rows * keyTop H X) (queryTop H X) (valueTop H X) := by
  obtain ⟨hn, hk, hv⟩ := hC
  refine ⟨?_, ?_, ?_, ?_, ?_, ?_, hH.v120, hH.c, ?_, ?_, hH.d20, ?_, hH.q50, hH.top⟩
  · change C.k.length = C.n * _; rw [hn]; exact hk.1
  · change C.v.length = C.n * _; rw [hn]; exact hv.1
  · exact fun x hx => ⟨(rows_mem hk x hx).1, (rows_mem hk x hx).2.trans hH.k50⟩
  · intro j hj
    change j < C.n at hj
    rw [hn] at hj
    change ∑ k ∈ Finset.range H.key.rows, |at2 H.key.rows C.k j k| ≤ _
    refine (Finset.sum_le_sum fun k hk' => ?_).trans (le_of_eq (a := ∑ k ∈ Finset.range H.key.rows, keyTop H X) ?_)
    · obtain ⟨-, e, g⟩ := rows_at hk hj (Finset.mem_range.mp hk')
      exact close_top e g
    · rw [Finset.sum_const, Finset.card_range, nsmul_eq_mul]
  · exact rows_mem hv
  · exact add_nonneg (mag_nonneg hH.x0) (linErr_nonneg hH.x0)
  · change 0 < C.n; rw [hn]; exact List.length_pos_iff.mpr h0
  · change C.n ≤ _; rw [hn]; exact hN.trans hH.n20
  · exact add_nonneg (mag_nonneg hH.x0) (linErr_nonneg hH.x0)

theorem attErr_mono {n m d : Nat} {c Λ Q B : ℝ} (h : n ≤ m) (hB : 0 ≤ B) : attErr n d c Λ Q B ≤ attErr m d c Λ Q B := by
  have hn : (n : ℝ) ≤ m := by exact_mod_cast h
  unfold attErr weightErr Softmax32.tol
  gcongr

/-- The projected queries. -/
theorem attend_ok (hM : Softmax32.GoodExp M.lib.exp) (hH : Spec.Head32.Fits H N X) {ts qs pq : List (List F32.W)} {C : Cache}
    (hC : Holds H X ts C) (h0 : ts ≠ []) (hN : ts.length ≤ N) (hl : pq.length = qs.length)
    (hq : ∀ (i : Nat) x y, qs[i]? = some x → pq[i]? = some y → Near H.query X x y) :
    (∃ out, Attention M ⟨C.n, H.key.rows, H.value.rows, C.k, C.v, H.c⟩ H.causal pq out) ∧
    ∀ out, Attention M ⟨C.n, H.key.rows, H.value.rows, C.k, C.v, H.c⟩ H.causal pq out → OutClose H N X ts qs out := by
  have hqn : ∀ (i : Nat) y, pq[i]? = some y → ∃ x, qs[i]? = some x ∧ Near H.query X x y := fun i y hy => by
    obtain ⟨hi, -⟩ := List.getElem?_eq_some_iff.mp hy
    exact ⟨_, List.getElem?_eq_getElem (by omega), hq i _ y (List.getElem?_eq_getElem (by omega)) hy⟩
  have hwithin : ∀ p ∈ pq, Within H.key.rows p (queryTop H X) := fun p hp => by
    obtain ⟨i, hi⟩ := List.mem_iff_getElem?.mp hp
    obtain ⟨x, -, hn⟩ := hqn i p hi
    rw [← hH.same]
    exact ⟨hn.1, fun k hk => ⟨(hn.2 k hk).1, close_top (hn.2 k hk).2.1 (hn.2 k hk).2.2⟩⟩
  obtain ⟨g1, g2⟩ := attention_close hM (fits_mem hH hC h0 hN) H.causal pq hwithin
  refine ⟨g1, fun out ho => ?_⟩
  obtain ⟨k1, k2⟩ := g2 out ho
  refine ⟨by rw [k1, hl], fun i q w z hi hz => ?_⟩
  have hip : i < pq.length := by
    obtain ⟨hi', -⟩ := List.getElem?_eq_some_iff.mp hi
    omega
  have hp : pq[i]? = some pq[i] := List.getElem?_eq_getElem hip
  obtain ⟨a1, a2, -, a4, a5⟩ := k2 i pq[i] w z hp hz
  rw [hl] at a2 a5
  obtain ⟨hn, hk, hv⟩ := id hC
  refine ⟨a1.trans hn, ?_, a4, fun l hlr => ⟨(a5 l hlr).1, ?_⟩⟩
  · rw [← hn]; exact a2
  have e1 := (a5 l hlr).2
  have hnear := hq i q pq[i] hi hp
  have hT : 0 < ts.length := List.length_pos_iff.mpr h0
  have hmono := attErr_mono (d := H.key.rows) (c := val H.c) (Λ := H.key.rows * keyTop H X) (Q := queryTop H X) hN
    (B := valueTop H X) (add_nonneg (mag_nonneg hH.x0) (linErr_nonneg hH.x0))
  have e2 : |attend ts.length H.key.rows (sees (H.causal && decide (1 < qs.length)) i) (val H.c) (at2 H.key.rows C.k) (at2 H.value.rows C.v) (vals pq[i]) l -
      head H ts (sees (H.causal && decide (1 < qs.length)) i) q l| ≤ (Real.exp (2 * scoreMove H X) - 1) * mag H.value X + linErr H.value X := by
    unfold head scoreMove
    refine attend_move ⟨0, hT, fun _ => Nat.zero_le _⟩ ?_ (fun j hj k hk' => (rows_at hk hj hk').2.1) ?_ ?_ (linErr_nonneg hH.x0) (mag_nonneg hH.x0)
      (fun j hj => (rows_at hv hj hlr).2.1) (fun j hj => (rows_at hv hj hlr).2.2)
    · intro j hj
      refine (fits_mem hH hC h0 hN).row j ?_
      change j < C.n
      rw [hn]; exact hj
    · intro k hk'; exact (hnear.2 k (hH.same ▸ hk')).2.1
    · intro k hk'; exact (hnear.2 k (hH.same ▸ hk')).2.2
  have e1' : |val (z.getD l 0) - attend ts.length H.key.rows (sees (H.causal && decide (1 < qs.length)) i) (val H.c) (at2 H.key.rows C.k)
      (at2 H.value.rows C.v) (vals pq[i]) l| ≤ attErr ts.length H.key.rows (val H.c) (H.key.rows * keyTop H X) (queryTop H X) (valueTop H X) := by
    rw [← hn]; exact e1
  have := abs_sub_le (val (z.getD l 0)) (attend ts.length H.key.rows (sees (H.causal && decide (1 < qs.length)) i) (val H.c) (at2 H.key.rows C.k)
      (at2 H.value.rows C.v) (vals pq[i]) l) (head H ts (sees (H.causal && decide (1 < qs.length)) i) q l)
  unfold headErr
  linarith

/-- The vectors behind a cache that may be empty. -/
def HoldsOpt (H : Head) (X : ℝ) : Option (List (List F32.W)) → Option Cache → Prop
  | none, none => True
  | some ts, some C => Holds H X ts C
  | _, _ => False

theorem keys_ok (hH : Spec.Head32.Fits H N X) {o : Option (List (List F32.W))} {cache : Option Cache} (ho : HoldsOpt H X o cache)
    {xs : List (List F32.W)} (hx : ∀ x ∈ xs, Within H.key.cols x X) (h0 : o = none → xs ≠ []) :
    (∃ C, KeysValues M H xs cache C) ∧ ∀ C, KeysValues M H xs cache C → Holds H X (grow H.cross o xs) C := by
  obtain ⟨⟨k, hk⟩, kall⟩ := linear_ok (M := M) hH.x0 hH.key xs hx
  obtain ⟨⟨v, hv⟩, vall⟩ := linear_ok (M := M) hH.x0 hH.value xs (by rw [hH.cols]; exact hx)
  match o, cache, ho with
  | none, none, _ =>
    refine ⟨⟨_, h0 rfl, k, v, hk, hv, rfl⟩, ?_⟩
    rintro C ⟨-, k', v', hk', hv', rfl⟩
    have r1 := rows_append (rows_nil (L := H.key)) (kall k' hk').1 (kall k' hk').2
    have r2 := rows_append (rows_nil (L := H.value)) (vall v' hv').1 (vall v' hv').2
    rw [List.nil_append, List.nil_append] at r1 r2
    exact ⟨rfl, r1, r2⟩
  | some ts, some C₀, ho =>
    obtain ⟨hn, r1, r2⟩ : Holds H X ts C₀ := ho
    cases hc : H.cross with
    | true =>
      refine ⟨⟨C₀, by simp [KeysValues, hc]⟩, fun C hC => ?_⟩
      obtain rfl : C = C₀ := by simpa [KeysValues, hc] using hC
      exact ⟨hn, r1, r2⟩
    | false =>
      refine ⟨⟨⟨C₀.n + xs.length, C₀.k ++ k.flatten, C₀.v ++ v.flatten⟩, ?_⟩, fun C hC => ?_⟩
      · simp only [KeysValues, hc, Bool.false_eq_true, if_false]
        exact ⟨k, v, hk, hv, rfl⟩
      · simp only [KeysValues, hc, Bool.false_eq_true, if_false] at hC
        obtain ⟨k', v', hk', hv', rfl⟩ := hC
        refine ⟨?_, rows_append r1 (kall k' hk').1 (kall k' hk').2, rows_append r2 (vall v' hv').1 (vall v' hv').2⟩
        change C₀.n + xs.length = (ts ++ xs).length
        rw [hn, List.length_append]

/-- **C92: one call.**  The head ends, its cache holds what it has seen, and its results are close to the exact ones. -/
theorem forward_close (hM : Softmax32.GoodExp M.lib.exp) (hH : Spec.Head32.Fits H N X) {o : Option (List (List F32.W))} {cache : Option Cache}
    (ho : HoldsOpt H X o cache) {qs xs : List (List F32.W)} (hq : ∀ q ∈ qs, Within H.query.cols q X) (hx : ∀ x ∈ xs, Within H.key.cols x X)
    (h0 : grow H.cross o xs ≠ []) (hN : (grow H.cross o xs).length ≤ N) :
    (∃ out C, Forward M H cache qs xs out C) ∧ ∀ out C, Forward M H cache qs xs out C → Holds H X (grow H.cross o xs) C ∧
      OutClose H N X (grow H.cross o xs) qs out := by
  obtain ⟨⟨C₀, hC₀⟩, call⟩ := keys_ok (M := M) hH ho hx (by rintro rfl; exact h0)
  obtain ⟨⟨pq₀, hp₀⟩, pall⟩ := linear_ok (M := M) hH.x0 hH.query qs hq
  constructor
  · obtain ⟨out, h⟩ := (attend_ok hM hH (call C₀ hC₀) h0 hN (pall pq₀ hp₀).1 (pall pq₀ hp₀).2).1
    exact ⟨out, C₀, pq₀, hp₀, hC₀, h⟩
  · rintro out C ⟨pq, hp, hC, ha⟩
    exact ⟨call C hC, (attend_ok hM hH (call C hC) h0 hN (pall pq hp).1 (pall pq hp).2).2 out ha⟩

/-- What the cache stands for after some calls. -/
def heard (cross : Bool) : Option (List (List F32.W)) → List (List (List F32.W) × List (List F32.W)) → Option (List (List F32.W))
  | o, [] => o
  | o, (_, xs) :: calls => heard cross (some (grow cross o xs)) calls

theorem grow_le (cross : Bool) (ts xs : List (List F32.W)) : ts.length ≤ (grow cross (some ts) xs).length := by
  cases cross <;> simp [grow]

theorem heard_le (cross : Bool) : ∀ (calls : List (List (List F32.W) × List (List F32.W))) (ts ts' : List (List F32.W)),
    heard cross (some ts) calls = some ts' → ts.length ≤ ts'.length
  | [], ts, ts', h => by obtain rfl : ts = ts' := by simpa [heard] using h
                         exact le_rfl
  | (_, xs) :: calls, ts, ts', h => (grow_le cross ts xs).trans (heard_le cross calls _ ts' h)

/-- **C92.**  Any number of calls, each with the cache of the one before: if the first call brings at least one vector and all together no more
than `N` are kept, the head ends on all of them and the results of every call are close to the exact ones over all that was kept. -/
theorem session_close (hM : Softmax32.GoodExp M.lib.exp) (hH : Spec.Head32.Fits H N X) :
    ∀ (calls : List (List (List F32.W) × List (List F32.W))) (o : Option (List (List F32.W))) (cache : Option Cache), HoldsOpt H X o cache →
      (∀ c ∈ calls, (∀ q ∈ c.1, Within H.query.cols q X) ∧ ∀ x ∈ c.2, Within H.key.cols x X) →
      (∀ c, calls.head? = some c → grow H.cross o c.2 ≠ []) → (∀ ts, heard H.cross o calls = some ts → ts.length ≤ N) →
      (∃ outs, Session M H cache calls outs) ∧ ∀ outs, Session M H cache calls outs → SessionClose H N X o calls outs := by
  intro calls
  induction calls with
  | nil =>
    intro o cache _ _ _ _
    exact ⟨⟨[], rfl⟩, fun outs h => h⟩
  | cons c calls ih =>
    obtain ⟨qs, xs⟩ := c
    intro o cache ho hw h0 hN
    have hne := h0 (qs, xs) rfl
    obtain ⟨hq, hx⟩ := hw (qs, xs) (by simp)
    have hsome : ∀ (calls : List (List (List F32.W) × List (List F32.W))) ts, ∃ ts', heard H.cross (some ts) calls = some ts' := by
      intro calls
      induction calls with
      | nil => exact fun ts => ⟨ts, rfl⟩
      | cons c calls ih => exact fun ts => ih _
    have hlen : (grow H.cross o xs).length ≤ N := by
      obtain ⟨ts', h'⟩ := hsome calls (grow H.cross o xs)
      exact (heard_le _ _ _ _ h').trans (hN ts' h')
    obtain ⟨⟨out₀, C₀, hf₀⟩, fall⟩ := forward_close hM hH ho hq hx hne hlen
    have next : ∀ C, Holds H X (grow H.cross o xs) C →
        (∃ outs, Session M H (some C) calls outs) ∧ ∀ outs, Session M H (some C) calls outs → SessionClose H N X (some (grow H.cross o xs)) calls outs :=
      fun C hC => ih (some (grow H.cross o xs)) (some C) hC (fun c hc => hw c (by simp [hc]))
        (fun c _ h => hne (List.length_eq_zero_iff.mp (Nat.le_zero.mp (by
          have := grow_le H.cross (grow H.cross o xs) c.2
          rw [h] at this; exact this)))) hN
    constructor
    · obtain ⟨rest, hr⟩ := (next C₀ (fall out₀ C₀ hf₀).1).1
      exact ⟨out₀ :: rest, out₀, C₀, rest, hf₀, hr, rfl⟩
    · rintro outs ⟨out, C, rest, hf, hr, rfl⟩
      exact ⟨out, rest, rfl, (fall out C hf).2, (next C (fall out C hf).1).2 rest hr⟩

/-! ### Decoding one vector at a time -/

/-- One call per vector. -/
def single (xs : List (List F32.W)) : List (List (List F32.W) × List (List F32.W)) := xs.map fun x => ([x], [x])

theorem single_close (hc : H.cross = false) : ∀ (xs ts : List (List F32.W)) (o : Option (List (List F32.W))) (outs : List (List (List F32.W × List F32.W))),
    (∀ x, grow H.cross o [x] = ts ++ [x]) →
    SessionClose H N X o (single xs) outs → outs.length = xs.length ∧ ∀ (t : Nat) x, xs[t]? = some x → ∃ w z, outs[t]? = some [(w, z)] ∧
      z.length = H.value.rows ∧ ∀ l < H.value.rows, F32.Finite (z.getD l 0) ∧
        |val (z.getD l 0) - head H (ts ++ xs.take (t + 1)) (sees false 0) x l| ≤ headErr H N X := by
  intro xs
  induction xs with
  | nil =>
    intro ts o outs _ h
    obtain rfl : outs = [] := h
    exact ⟨rfl, fun t x h => by simp at h⟩
  | cons x xs ih =>
    intro ts o outs hg h
    obtain ⟨out, rest, rfl, h1, h2⟩ := h
    rw [hg x] at h1 h2
    obtain ⟨g1, g2⟩ := ih (ts ++ [x]) (some (ts ++ [x])) rest (fun y => by simp [grow, hc]) h2
    refine ⟨by simp [g1], fun t y hy => ?_⟩
    cases t with
    | zero =>
      obtain rfl : x = y := by simpa using hy
      obtain ⟨k1, k2⟩ := h1
      match out, k1, k2 with
      | [(w, z)], _, k2 =>
        have := k2 0 x w z rfl rfl
        simp only [List.length_singleton, Nat.lt_irrefl, decide_false, Bool.and_false] at this
        refine ⟨w, z, rfl, this.2.2.1, ?_⟩
        have h4 := this.2.2.2
        simpa using h4
    | succ t =>
      obtain ⟨w, z, e1, e2, e3⟩ := g2 t y (by simpa using hy)
      refine ⟨w, z, by simpa using e1, e2, ?_⟩
      rw [show ts ++ (x :: xs).take (t + 1 + 1) = ts ++ [x] ++ xs.take (t + 1) by simp]
      exact e3

/-- What comes after position `t` does not matter to the exact result under the mask. -/
theorem head_cut {xs : List (List F32.W)} {t : Nat} (ht : t < xs.length) (q : List F32.W) (l : Nat) :
    head H (xs.take (t + 1)) (sees false 0) q l = head H xs (sees true t) q l := by
  unfold head
  have hlen : (xs.take (t + 1)).length = t + 1 := by rw [List.length_take]; omega
  rw [hlen]
  have hget : ∀ j < t + 1, (xs.take (t + 1)).getD j [] = xs.getD j [] := fun j hj => by
    rw [List.getD_eq_getElem?_getD, List.getElem?_take_of_lt hj, ← List.getD_eq_getElem?_getD]
  rw [← attend_cut (n := t + 1) (m := xs.length) (ok := sees false 0) (ok' := sees true t) (by omega)
    (fun j hj => by unfold sees; simp; omega) (fun j hj _ => by unfold sees; simp; omega)]
  unfold attend score
  refine Finset.sum_congr rfl fun j hj => ?_
  have hj := Finset.mem_range.mp hj
  beta_reduce
  rw [hget j hj]
  congr 1
  unfold share
  beta_reduce
  rw [hget j hj]
  congr 1
  refine Finset.sum_congr rfl fun k hk => ?_
  rw [hget k (Finset.mem_range.mp hk)]

/-- **C92: the cache.**  A self-attention head with a causal mask, once given all the vectors at once and once one after the other with its
cache, gives results that differ by at most twice the error bound. -/
theorem decode_agrees (hM : Softmax32.GoodExp M.lib.exp) (hH : Spec.Head32.Fits H N X) (hc : H.cross = false) (hm : H.causal = true)
    {xs : List (List F32.W)} (hx : ∀ x ∈ xs, Within H.query.cols x X ∧ Within H.key.cols x X) (hN : xs.length ≤ N) (h0 : xs ≠ []) :
    (∃ outs, Session M H none (single xs) outs) ∧ (∃ out C, Forward M H none xs xs out C) ∧
    ∀ outs out C, Session M H none (single xs) outs → Forward M H none xs xs out C → outs.length = xs.length ∧ out.length = xs.length ∧
      ∀ t < xs.length, ∃ w z w' z', outs[t]? = some [(w, z)] ∧ out[t]? = some (w', z') ∧ z.length = H.value.rows ∧ z'.length = H.value.rows ∧
        ∀ l < H.value.rows, F32.Finite (z.getD l 0) ∧ F32.Finite (z'.getD l 0) ∧ |val (z.getD l 0) - val (z'.getD l 0)| ≤ 2 * headErr H N X := by
  have hheard : ∀ (xs ts : List (List F32.W)), heard H.cross (some ts) (single xs) = some (ts ++ xs) := by
    intro xs
    induction xs with
    | nil => intro ts; simp [single, heard]
    | cons x xs ih =>
      intro ts
      have := ih (ts ++ [x])
      simp only [single, List.map_cons, heard, grow, hc] at this ⊢
      simpa using this
  obtain ⟨s1, s2⟩ := session_close hM hH (single xs) none none trivial
    (fun c hcm => by
      obtain ⟨x, hxm, rfl⟩ := List.mem_map.mp hcm
      exact ⟨fun q hq => by obtain rfl : q = x := by simpa using hq
                            exact (hx _ hxm).1,
        fun q hq => by obtain rfl : q = x := by simpa using hq
                       exact (hx _ hxm).2⟩)
    (fun c hcm => by
      cases xs with
      | nil => simp [single] at hcm
      | cons x xs =>
        obtain rfl : ([x], [x]) = c := by simpa [single] using hcm
        simp [grow])
    (fun ts hts => by
      cases xs with
      | nil => exact absurd rfl h0
      | cons x xs =>
        have : heard H.cross (some [x]) (single xs) = some ts := hts
        rw [hheard] at this
        obtain rfl : [x] ++ xs = ts := by simpa using this
        simpa using hN)
  obtain ⟨f1, f2⟩ := forward_close (M := M) hM hH (o := none) (cache := none) trivial (qs := xs) (xs := xs) (fun q h => (hx q h).1) (fun q h => (hx q h).2) h0 hN
  refine ⟨s1, f1, fun outs out C hs hf => ?_⟩
  obtain ⟨a1, a2⟩ := single_close hc xs [] none outs (fun x => rfl) (s2 outs hs)
  obtain ⟨b1, b2⟩ := (f2 out C hf).2
  refine ⟨a1, b1, fun t ht => ?_⟩
  obtain ⟨w, z, e1, e2, e3⟩ := a2 t _ (List.getElem?_eq_getElem ht)
  obtain ⟨⟨w', z'⟩, e4⟩ : ∃ p, out[t]? = some p := ⟨_, List.getElem?_eq_getElem (by omega)⟩
  obtain ⟨-, -, e5, e6⟩ := b2 t _ w' z' (List.getElem?_eq_getElem ht) e4
  refine ⟨w, z, w', z', e1, e4, e2, e5, fun l hl => ⟨(e3 l hl).1, (e6 l hl).1, ?_⟩⟩
  have g1 := (e3 l hl).2
  have g2 := (e6 l hl).2
  rw [List.nil_append] at g1
  have hsame : head H xs (sees (H.causal && decide (1 < xs.length)) t) xs[t] l = head H (xs.take (t + 1)) (sees false 0) xs[t] l := by
    rw [head_cut ht]
    by_cases h1 : 1 < xs.length
    · simp [hm, h1]
    · have ht0 : t = 0 := by omega
      subst ht0
      unfold head
      refine attend_cut le_rfl (fun j hj => ?_) (fun j hj hj' => by omega)
      unfold sees
      constructor
      · intro _ _; omega
      · intro _ _; omega
  change |val (z'.getD l 0) - head H xs (sees (H.causal && decide (1 < xs.length)) t) xs[t] l| ≤ _ at g2
  rw [hsame] at g2
  rw [abs_sub_comm] at g2
  have := abs_sub_le (val (z.getD l 0)) (head H (xs.take (t + 1)) (sees false 0) xs[t] l) (val (z'.getD l 0))
  linarith

end Verif.Head32
