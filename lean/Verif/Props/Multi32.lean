import Verif.Props.Head32Session

set_option autoImplicit false
set_option linter.unusedSimpArgs false

/-!
# C92: several heads
-/

namespace Verif.Head32
open Verif.F32 Verif.Asm Verif.Spec Verif.Spec.Kernels Verif.Net32 Verif.Spec.Net32 Verif.Rec32 Verif.Spec.Rec32 Verif.Att32 Verif.Spec.Att32
  Verif.Spec.Head32

variable {M : Machine} {A : Multi} {N : Nat} {X V E : ℝ} {cross causal : Bool}

theorem lin_mag {L : Lin} (hX : 0 ≤ X) {u : Nat → ℝ} (hu : ∀ k < L.cols, |u k| ≤ X) {i : Nat} (hi : i < L.rows) : |lin L u i| ≤ mag L X := by
  unfold lin mag
  refine (abs_add_le _ _).trans (add_le_add (sum_dev ?_ hX hu) ?_)
  · exact le_largest (f := fun i => ∑ k ∈ Finset.range L.cols, |at2 L.cols L.w i k|) hi
  · exact le_largest (f := fun i => |val (L.b.getD i 0)|) hi

/-- An exact result is no larger than the values. -/
theorem head_mag {H : Head} (hX : 0 ≤ X) {ts : List (List F32.W)} {ok : Nat → Prop} [DecidablePred ok] {q : List F32.W}
    (hx : ∀ x ∈ ts, Within H.value.cols x X) (hne : ∃ k < ts.length, ok k) {l : Nat} (hl : l < H.value.rows) :
    |head H ts ok q l| ≤ mag H.value X := by
  unfold head attend
  refine (sum_dev (Λ := 1) (M := mag H.value X) ?_ (mag_nonneg hX) fun j hj => ?_).trans (by rw [one_mul])
  · refine le_of_eq ?_
    rw [← share_sum (s := score H.key.rows (val H.c) (fun j => lin H.key (vals (ts.getD j []))) (lin H.query (vals q))) hne]
    exact Finset.sum_congr rfl fun j _ => abs_of_nonneg (share_nonneg j)
  · refine lin_mag hX (fun k hk => ?_) hl
    have hm : ts.getD j [] ∈ ts := by rw [List.getD_eq_getElem _ _ hj]; exact List.getElem_mem hj
    exact ((hx _ hm).2 k hk).2

/-- What the heads do, from the `i`-th on. -/
theorem heads_ok (hM : Softmax32.GoodExp M.lib.exp) {caches : List (Option Cache)} {o : Option (List (List F32.W))} {qs xs : List (List F32.W)}
    (h0 : grow cross o xs ≠ []) (hN : (grow cross o xs).length ≤ N) :
    ∀ (Hs : List Head) (i : Nat),
      (∀ H ∈ Hs, Spec.Head32.Fits H N X ∧ H.cross = cross ∧ (∀ q ∈ qs, Within H.query.cols q X) ∧ ∀ x ∈ xs, Within H.key.cols x X) →
      (∀ (k : Nat) H, Hs[k]? = some H → ∃ cache, cacheAt caches (i + k) = some cache ∧ HoldsOpt H X o cache) →
      (∃ outs Cs, Heads M caches qs xs i Hs outs Cs) ∧ ∀ outs Cs, Heads M caches qs xs i Hs outs Cs → outs.length = Hs.length ∧ Cs.length = Hs.length ∧
        ∀ (k : Nat) H out C, Hs[k]? = some H → outs[k]? = some out → Cs[k]? = some C → Holds H X (grow cross o xs) C ∧
          OutClose H N X (grow cross o xs) qs out := by
  intro Hs
  induction Hs with
  | nil =>
    intro i _ _
    refine ⟨⟨[], [], rfl, rfl⟩, ?_⟩
    rintro outs Cs ⟨rfl, rfl⟩
    exact ⟨rfl, rfl, fun k H out C h => by simp at h⟩
  | cons H Hs ih =>
    intro i hf hc
    obtain ⟨hfit, hcr, hq, hx⟩ := hf H (by simp)
    obtain ⟨cache, hca, hho⟩ := hc 0 H rfl
    rw [Nat.add_zero] at hca
    obtain ⟨⟨out, C, h1⟩, hall⟩ := forward_close (M := M) hM hfit hho hq hx (by rw [hcr]; exact h0) (by rw [hcr]; exact hN)
    obtain ⟨⟨os, cs, h2⟩, hrest⟩ := ih (i + 1) (fun H h => hf H (by simp [h])) (fun k H' h => by
      have := hc (k + 1) H' (by simpa using h)
      rwa [show i + (k + 1) = i + 1 + k by omega] at this)
    refine ⟨⟨out :: os, C :: cs, cache, out, C, os, cs, hca, h1, h2, rfl, rfl⟩, ?_⟩
    rintro outs Cs ⟨cache', out', C', os', cs', hca', h1', h2', rfl, rfl⟩
    obtain rfl : cache = cache' := by rw [hca] at hca'; exact Option.some.inj hca'
    obtain ⟨g1, g2, g3⟩ := hrest os' cs' h2'
    refine ⟨by simp [g1], by simp [g2], fun k H' o' c' hH hO hC => ?_⟩
    cases k with
    | zero =>
      simp only [List.getElem?_cons_zero, Option.some.injEq] at hH hO hC
      subst hH hO hC
      have := hall _ _ h1'
      rwa [hcr] at this
    | succ k => exact g3 k H' o' c' (by simpa using hH) (by simpa using hO) (by simpa using hC)

/-- The results side by side. -/
theorem joined_close {ts qs : List (List F32.W)} {i : Nat} {q : List F32.W} (hX : 0 ≤ X) (hi : qs[i]? = some q) (h0 : ts ≠ []) :
    ∀ (Hs : List Head) (outs : List (List (List F32.W × List F32.W))), outs.length = Hs.length →
      (∀ H ∈ Hs, H.causal = causal ∧ headErr H N X ≤ E ∧ mag H.value X ≤ V ∧ ∀ x ∈ ts, Within H.value.cols x X) →
      (∀ (k : Nat) H out, Hs[k]? = some H → outs[k]? = some out → OutClose H N X ts qs out) →
      Close (Hs.map fun H => H.value.rows).sum (joined outs i) (side ts (sees (causal && decide (1 < qs.length)) i) q Hs) V E := by
  intro Hs
  induction Hs with
  | nil =>
    intro outs hl _ _
    obtain rfl : outs = [] := by simpa using hl
    exact ⟨rfl, fun k hk => by simp at hk⟩
  | cons H Hs ih =>
    intro outs hl hH hout
    match outs, hl with
    | out :: os, hl =>
      obtain ⟨hc, he, hm, hx⟩ := hH H (by simp)
      obtain ⟨g1, g2⟩ := ih os (by simpa using hl) (fun H h => hH H (by simp [h])) (fun k H o h1 h2 => hout (k + 1) H o (by simpa using h1) (by simpa using h2))
      obtain ⟨o1, o2⟩ := hout 0 H out rfl rfl
      obtain ⟨hi', -⟩ := List.getElem?_eq_some_iff.mp hi
      obtain ⟨⟨w, z⟩, ho⟩ : ∃ p, out[i]? = some p := ⟨_, List.getElem?_eq_getElem (by omega)⟩
      obtain ⟨-, -, z1, z2⟩ := o2 i q w z hi ho
      rw [hc] at z2
      have hj : joined (out :: os) i = z ++ joined os i := by
        unfold joined
        rw [List.map_cons, List.flatten_cons, List.getD_eq_getElem?_getD, ho]
        rfl
      rw [hj]
      refine ⟨by rw [List.length_append, z1, g1, List.map_cons, List.sum_cons], fun k hk => ?_⟩
      rw [List.map_cons, List.sum_cons] at hk
      unfold side
      by_cases hlt : k < H.value.rows
      · rw [if_pos hlt, List.getD_append _ _ _ _ (by omega)]
        exact ⟨(z2 k hlt).1, (z2 k hlt).2.trans he, (head_mag hX hx ⟨0, List.length_pos_iff.mpr h0, fun _ => Nat.zero_le _⟩ hlt).trans hm⟩
      · rw [if_neg hlt, List.getD_append_right _ _ _ _ (by omega), z1]
        exact g2 _ (by omega)

/-- The vectors behind the caches of all heads. -/
def HoldsAll (A : Multi) (X : ℝ) : Option (List (List F32.W)) → List (Option Cache) → Prop
  | none, caches => caches = []
  | some ts, caches => ∃ Cs : List Cache, caches = Cs.map some ∧ Cs.length = A.heads.length ∧
      ∀ (k : Nat) H C, A.heads[k]? = some H → Cs[k]? = some C → Holds H X ts C

theorem holds_at (hne : A.heads ≠ []) {o : Option (List (List F32.W))} {caches : List (Option Cache)} (h : HoldsAll A X o caches) (k : Nat) (H : Head)
    (hk : A.heads[k]? = some H) : ∃ cache, cacheAt caches k = some cache ∧ HoldsOpt H X o cache := by
  cases o with
  | none =>
    obtain rfl : caches = [] := h
    exact ⟨none, rfl, trivial⟩
  | some ts =>
    obtain ⟨Cs, rfl, hl, hC⟩ := h
    obtain ⟨hk', -⟩ := List.getElem?_eq_some_iff.mp hk
    have hCs : Cs ≠ [] := fun e => by rw [e] at hl; exact hne (List.length_eq_zero_iff.mp hl.symm)
    have hg : Cs[k]? = some (Cs[k]'(by omega)) := List.getElem?_eq_getElem _
    refine ⟨some (Cs[k]'(by omega)), ?_, hC k H _ hk hg⟩
    unfold cacheAt
    rw [if_neg (by simpa using hCs), List.getElem?_map, hg]
    rfl

/-- **C92: one call of several heads.** -/
theorem multi_close (hM : Softmax32.GoodExp M.lib.exp) (hA : MultiFits A cross causal N X V E) (hX : 0 ≤ X) (hE : 0 ≤ E) (hV : 0 ≤ V)
    {o : Option (List (List F32.W))} {caches : List (Option Cache)} (ho : HoldsAll A X o caches) {qs xs : List (List F32.W)}
    (hq : ∀ H ∈ A.heads, (∀ q ∈ qs, Within H.query.cols q X) ∧ ∀ x ∈ grow cross o xs ++ xs, Within H.key.cols x X)
    (h0 : grow cross o xs ≠ []) (hN : (grow cross o xs).length ≤ N) :
    (∃ ys Cs, MultiForward M A caches qs xs ys Cs) ∧ ∀ ys Cs, MultiForward M A caches qs xs ys Cs →
      HoldsAll A X (some (grow cross o xs)) (Cs.map some) ∧ MultiClose A causal V E (grow cross o xs) qs ys := by
  obtain ⟨⟨outs₀, Cs₀, hh₀⟩, hall⟩ := heads_ok (M := M) hM (caches := caches) (qs := qs) (xs := xs) h0 hN A.heads 0
    (fun H hH => ⟨hA.fits H hH, (hA.kind H hH).1, (hq H hH).1, fun x hx => (hq H hH).2 x (by simp [hx])⟩)
    (fun k H hk => by rw [Nat.zero_add]; exact holds_at hA.some ho k H hk)
  have hjoin : ∀ outs Cs, Heads M caches qs xs 0 A.heads outs Cs → ∀ (i : Nat) q, qs[i]? = some q →
      Close A.merge.cols (joined outs i) (side (grow cross o xs) (sees (causal && decide (1 < qs.length)) i) q A.heads) V E := by
    intro outs Cs hh i q hi
    obtain ⟨l1, l2, l3⟩ := hall outs Cs hh
    rw [← hA.width]
    refine joined_close hX hi h0 A.heads outs l1 (fun H hH => ⟨(hA.kind H hH).2, hA.err H hH, hA.mag H hH, fun x hx => ?_⟩) (fun k H out h1 h2 => ?_)
    · rw [(hA.fits H hH).cols]; exact (hq H hH).2 x (by simp [hx])
    · obtain ⟨hk', -⟩ := List.getElem?_eq_some_iff.mp h1
      exact (l3 k H out _ h1 h2 (List.getElem?_eq_getElem (by omega))).2
  have hlin : ∀ outs Cs, Heads M caches qs xs 0 A.heads outs Cs → ∀ (i : Nat) q, qs[i]? = some q →
      (∃ y, Affine M.cpu A.merge.rows A.merge.cols A.merge.w A.merge.b (joined outs i) y) ∧
      ∀ y, Affine M.cpu A.merge.rows A.merge.cols A.merge.w A.merge.b (joined outs i) y → y.length = A.merge.rows ∧
        ∀ l < A.merge.rows, F32.Finite (y.getD l 0) ∧
          |val (y.getD l 0) - multi A (grow cross o xs) (sees (causal && decide (1 < qs.length)) i) q l| ≤ multiErr A V E := by
    intro outs Cs hh i q hi
    have hm := hA.merge
    obtain ⟨a1, a2⟩ := lin_ok M.cpu hV hE hm.c20 hm.w hm.b hm.wv hm.bv hm.x50 hm.top (hjoin outs Cs hh i q hi)
    refine ⟨a1, fun y hy => ⟨(a2 y hy).1, fun l hl => ⟨((a2 y hy).2 l hl).1, ?_⟩⟩⟩
    refine ((a2 y hy).2 l hl).2.1.trans (le_of_eq ?_)
    unfold multiErr linErr
    ring
  have hout : ∀ outs Cs, Heads M caches qs xs 0 A.heads outs Cs → ∀ out ∈ outs, out.length = qs.length := by
    intro outs Cs hh out hm
    obtain ⟨l1, l2, l3⟩ := hall outs Cs hh
    obtain ⟨k, hk⟩ := List.mem_iff_getElem?.mp hm
    obtain ⟨hk', -⟩ := List.getElem?_eq_some_iff.mp hk
    exact (l3 k _ out _ (List.getElem?_eq_getElem (by omega)) hk (List.getElem?_eq_getElem (by omega))).2.1
  have linAll : ∀ (P : List F32.W → List F32.W → Prop) (l : List (List F32.W)),
      (∀ x ∈ l, (∃ y, Affine M.cpu A.merge.rows A.merge.cols A.merge.w A.merge.b x y) ∧
        ∀ y, Affine M.cpu A.merge.rows A.merge.cols A.merge.w A.merge.b x y → P x y) →
      (∃ ys, Linear M.cpu A.merge l ys) ∧ ∀ ys, Linear M.cpu A.merge l ys → ys.length = l.length ∧
        ∀ (i : Nat) x y, l[i]? = some x → ys[i]? = some y → Affine M.cpu A.merge.rows A.merge.cols A.merge.w A.merge.b x y := by
    intro P l
    induction l with
    | nil =>
      intro _
      refine ⟨⟨[], rfl⟩, fun ys h => ?_⟩
      obtain rfl : ys = [] := h
      exact ⟨rfl, fun i x y h => by simp at h⟩
    | cons x l ih =>
      intro h
      obtain ⟨⟨y, hy⟩, -⟩ := h x (by simp)
      obtain ⟨⟨r, hr⟩, hrest⟩ := ih fun x hx => h x (by simp [hx])
      refine ⟨⟨y :: r, y, r, hy, hr, rfl⟩, ?_⟩
      rintro ys ⟨y', r', hy', hr', rfl⟩
      obtain ⟨g1, g2⟩ := hrest r' hr'
      refine ⟨by simp [g1], fun i p u hp hu => ?_⟩
      cases i with
      | zero =>
        simp only [List.getElem?_cons_zero, Option.some.injEq] at hp hu
        subst hp hu
        exact hy'
      | succ i => exact g2 i p u (by simpa using hp) (by simpa using hu)
  have hlinAll : ∀ outs Cs, Heads M caches qs xs 0 A.heads outs Cs →
      (∃ ys, Linear M.cpu A.merge ((List.range qs.length).map (joined outs)) ys) ∧
      ∀ ys, Linear M.cpu A.merge ((List.range qs.length).map (joined outs)) ys → MultiClose A causal V E (grow cross o xs) qs ys := by
    intro outs Cs hh
    obtain ⟨b1, b2⟩ := linAll (fun _ _ => True) ((List.range qs.length).map (joined outs)) (fun x hx => by
      obtain ⟨i, hi, rfl⟩ := List.mem_map.mp hx
      exact ⟨(hlin outs Cs hh i _ (List.getElem?_eq_getElem (List.mem_range.mp hi))).1, fun _ _ => trivial⟩)
    refine ⟨b1, fun ys hy => ?_⟩
    obtain ⟨c1, c2⟩ := b2 ys hy
    refine ⟨by simpa using c1, fun i q y hi hyi => ?_⟩
    obtain ⟨hi', -⟩ := List.getElem?_eq_some_iff.mp hi
    exact (hlin outs Cs hh i q hi).2 y (c2 i (joined outs i) y (by simp [hi']) hyi)
  constructor
  · obtain ⟨ys, hys⟩ := (hlinAll outs₀ Cs₀ hh₀).1
    exact ⟨ys, Cs₀, outs₀, hh₀, hout outs₀ Cs₀ hh₀, fun h => absurd h hA.some, hys⟩
  · rintro ys Cs ⟨outs, hh, -, -, hys⟩
    obtain ⟨l1, l2, l3⟩ := hall outs Cs hh
    refine ⟨⟨Cs, rfl, l2, fun k H C h1 h2 => ?_⟩, (hlinAll outs Cs hh).2 ys hys⟩
    obtain ⟨hk', -⟩ := List.getElem?_eq_some_iff.mp h1
    exact (l3 k H _ C h1 (List.getElem?_eq_getElem (by omega)) h2).1

/-- All that a cache or a call may bring is in range. -/
def InRange (A : Multi) (X : ℝ) (l : List (List F32.W)) : Prop := ∀ H ∈ A.heads, ∀ x ∈ l, Within H.key.cols x X

theorem grow_range {o : Option (List (List F32.W))} {xs : List (List F32.W)} (ho : ∀ ts, o = some ts → InRange A X ts) (hx : InRange A X xs) :
    InRange A X (grow cross o xs) := by
  intro H hH x hm
  cases o with
  | none => exact hx H hH x hm
  | some ts =>
    cases cross with
    | true => exact ho ts rfl H hH x hm
    | false =>
      rcases List.mem_append.mp (show x ∈ ts ++ xs from hm) with h | h
      · exact ho ts rfl H hH x h
      · exact hx H hH x h

/-- **C92: calls of several heads.** -/
theorem multi_session (hM : Softmax32.GoodExp M.lib.exp) (hA : MultiFits A cross causal N X V E) (hX : 0 ≤ X) (hE : 0 ≤ E) (hV : 0 ≤ V) :
    ∀ (calls : List (List (List F32.W) × List (List F32.W))) (o : Option (List (List F32.W))) (caches : List (Option Cache)), HoldsAll A X o caches →
      (∀ ts, o = some ts → InRange A X ts) →
      (∀ c ∈ calls, (∀ H ∈ A.heads, ∀ q ∈ c.1, Within H.query.cols q X) ∧ InRange A X c.2) →
      (∀ c, calls.head? = some c → grow cross o c.2 ≠ []) → (∀ ts, heard cross o calls = some ts → ts.length ≤ N) →
      (∃ yss, MultiSession M A caches calls yss) ∧ ∀ yss, MultiSession M A caches calls yss → MultiSessionClose A cross causal V E o calls yss := by
  intro calls
  induction calls with
  | nil =>
    intro o caches _ _ _ _ _
    exact ⟨⟨[], rfl⟩, fun yss h => h⟩
  | cons c calls ih =>
    obtain ⟨qs, xs⟩ := c
    intro o caches ho hor hw h0 hN
    have hne := h0 (qs, xs) rfl
    obtain ⟨hq, hx⟩ := hw (qs, xs) (by simp)
    have hsome : ∀ (calls : List (List (List F32.W) × List (List F32.W))) ts, ∃ ts', heard cross (some ts) calls = some ts' := by
      intro calls
      induction calls with
      | nil => exact fun ts => ⟨ts, rfl⟩
      | cons c calls ih => exact fun ts => ih _
    have hlen : (grow cross o xs).length ≤ N := by
      obtain ⟨ts', h'⟩ := hsome calls (grow cross o xs)
      exact (heard_le _ _ _ _ h').trans (hN ts' h')
    have hgr := grow_range (cross := cross) hor hx
    obtain ⟨⟨ys₀, Cs₀, hf₀⟩, fall⟩ := multi_close (M := M) hM hA hX hE hV ho (qs := qs) (xs := xs)
      (fun H hH => ⟨hq H hH, fun x hm => by
        rcases List.mem_append.mp hm with h | h
        · exact hgr H hH x h
        · exact hx H hH x h⟩) hne hlen
    have next : ∀ Cs : List Cache, HoldsAll A X (some (grow cross o xs)) (Cs.map some) →
        (∃ yss, MultiSession M A (Cs.map some) calls yss) ∧
        ∀ yss, MultiSession M A (Cs.map some) calls yss → MultiSessionClose A cross causal V E (some (grow cross o xs)) calls yss :=
      fun Cs hC => ih (some (grow cross o xs)) _ hC (fun ts h => by obtain rfl := Option.some.inj h; exact hgr) (fun c hc => hw c (by simp [hc]))
        (fun c _ h => hne (List.length_eq_zero_iff.mp (Nat.le_zero.mp (by
          have := grow_le cross (grow cross o xs) c.2
          rw [h] at this; exact this)))) hN
    constructor
    · obtain ⟨rest, hr⟩ := (next Cs₀ (fall ys₀ Cs₀ hf₀).1).1
      exact ⟨ys₀ :: rest, ys₀, Cs₀, rest, hf₀, hr, rfl⟩
    · rintro yss ⟨ys, Cs, rest, hf, hr, rfl⟩
      exact ⟨ys, rest, rfl, (fall ys Cs hf).2, (next Cs (fall ys Cs hf).1).2 rest hr⟩

/-! ### Decoding one vector at a time -/

theorem multi_single (hc : cross = false) : ∀ (xs ts : List (List F32.W)) (o : Option (List (List F32.W))) (yss : List (List (List F32.W))),
    (∀ x, grow cross o [x] = ts ++ [x]) →
    MultiSessionClose A cross causal V E o (single xs) yss → yss.length = xs.length ∧ ∀ (t : Nat) x, xs[t]? = some x → ∃ y, yss[t]? = some [y] ∧
      y.length = A.merge.rows ∧ ∀ l < A.merge.rows, F32.Finite (y.getD l 0) ∧
        |val (y.getD l 0) - multi A (ts ++ xs.take (t + 1)) (sees false 0) x l| ≤ multiErr A V E := by
  intro xs
  induction xs with
  | nil =>
    intro ts o yss _ h
    obtain rfl : yss = [] := h
    exact ⟨rfl, fun t x h => by simp at h⟩
  | cons x xs ih =>
    intro ts o yss hg h
    obtain ⟨ys, rest, rfl, h1, h2⟩ := h
    rw [hg x] at h1 h2
    obtain ⟨g1, g2⟩ := ih (ts ++ [x]) (some (ts ++ [x])) rest (fun y => by simp [grow, hc]) h2
    refine ⟨by simp [g1], fun t y hy => ?_⟩
    cases t with
    | zero =>
      obtain rfl : x = y := by simpa using hy
      obtain ⟨k1, k2⟩ := h1
      match ys, k1, k2 with
      | [y], _, k2 =>
        have := k2 0 x y rfl rfl
        simp only [List.length_singleton, Nat.lt_irrefl, decide_false, Bool.and_false] at this
        refine ⟨y, rfl, this.1, ?_⟩
        have h4 := this.2
        simpa using h4
    | succ t =>
      obtain ⟨z, e1, e2, e3⟩ := g2 t y (by simpa using hy)
      refine ⟨z, by simpa using e1, e2, ?_⟩
      rw [show ts ++ (x :: xs).take (t + 1 + 1) = ts ++ [x] ++ xs.take (t + 1) by simp]
      exact e3

theorem side_congr {ts ts' : List (List F32.W)} {ok ok' : Nat → Prop} [DecidablePred ok] [DecidablePred ok'] {q : List F32.W} {Hs : List Head}
    (h : ∀ H ∈ Hs, ∀ l, head H ts ok q l = head H ts' ok' q l) : ∀ k, side ts ok q Hs k = side ts' ok' q Hs k := by
  induction Hs with
  | nil => intro k; rfl
  | cons H Hs ih =>
    intro k
    unfold side
    split
    · exact h H (by simp) k
    · exact ih (fun H hH => h H (by simp [hH])) _

/-- **C92: the caches of several heads.**  Self-attention with a causal mask gives, up to twice the error bound, the same results for all
vectors at once and for one after the other with the caches. -/
theorem multi_decode (hM : Softmax32.GoodExp M.lib.exp) (hA : MultiFits A false true N X V E) (hX : 0 ≤ X) (hE : 0 ≤ E) (hV : 0 ≤ V)
    {xs : List (List F32.W)} (hx : ∀ H ∈ A.heads, ∀ x ∈ xs, Within H.query.cols x X ∧ Within H.key.cols x X) (hN : xs.length ≤ N) (h0 : xs ≠ []) :
    (∃ yss, MultiSession M A [] (single xs) yss) ∧ (∃ ys Cs, MultiForward M A [] xs xs ys Cs) ∧
    ∀ yss ys Cs, MultiSession M A [] (single xs) yss → MultiForward M A [] xs xs ys Cs → yss.length = xs.length ∧ ys.length = xs.length ∧
      ∀ t < xs.length, ∃ y y', yss[t]? = some [y] ∧ ys[t]? = some y' ∧ y.length = A.merge.rows ∧ y'.length = A.merge.rows ∧
        ∀ l < A.merge.rows, F32.Finite (y.getD l 0) ∧ F32.Finite (y'.getD l 0) ∧ |val (y.getD l 0) - val (y'.getD l 0)| ≤ 2 * multiErr A V E := by
  have hheard : ∀ (xs ts : List (List F32.W)), heard false (some ts) (single xs) = some (ts ++ xs) := by
    intro xs
    induction xs with
    | nil => intro ts; simp [single, heard]
    | cons x xs ih =>
      intro ts
      have := ih (ts ++ [x])
      simp only [single, List.map_cons, heard, grow] at this ⊢
      simpa using this
  obtain ⟨s1, s2⟩ := multi_session (M := M) hM hA hX hE hV (single xs) none [] rfl (fun ts h => by simp at h)
    (fun c hcm => by
      obtain ⟨x, hxm, rfl⟩ := List.mem_map.mp hcm
      exact ⟨fun H hH q hq => by obtain rfl : q = x := by simpa using hq
                                 exact (hx H hH _ hxm).1,
        fun H hH q hq => by obtain rfl : q = x := by simpa using hq
                            exact (hx H hH _ hxm).2⟩)
    (fun c hcm => by
      cases xs with
      | nil => simp [single] at hcm
      | cons x xs =>
        obtain rfl : ([x], [x]) = c := by simpa [single] using hcm
        simp [grow])
    (fun ts hts => by
      cases xs with
      | nil => exact absurd rfl h0
      | cons x xs =>
        have : heard false (some [x]) (single xs) = some ts := hts
        rw [hheard] at this
        obtain rfl : [x] ++ xs = ts := by simpa using this
        simpa using hN)
  obtain ⟨f1, f2⟩ := multi_close (M := M) hM hA hX hE hV (o := none) (caches := []) rfl (qs := xs) (xs := xs)
    (fun H hH => ⟨fun q h => (hx H hH q h).1, fun x h => by
      have : x ∈ xs := by simpa [grow] using h
      exact (hx H hH x this).2⟩) h0 hN
  refine ⟨s1, f1, fun yss ys Cs hs hf => ?_⟩
  obtain ⟨a1, a2⟩ := multi_single rfl xs [] none yss (fun x => rfl) (s2 yss hs)
  obtain ⟨b1, b2⟩ := (f2 ys Cs hf).2
  refine ⟨a1, b1, fun t ht => ?_⟩
  obtain ⟨y, e1, e2, e3⟩ := a2 t _ (List.getElem?_eq_getElem ht)
  obtain ⟨y', e4⟩ : ∃ p, ys[t]? = some p := ⟨_, List.getElem?_eq_getElem (by omega)⟩
  obtain ⟨e5, e6⟩ := b2 t _ y' (List.getElem?_eq_getElem ht) e4
  refine ⟨y, y', e1, e4, e2, e5, fun l hl => ⟨(e3 l hl).1, (e6 l hl).1, ?_⟩⟩
  have g1 := (e3 l hl).2
  have g2 := (e6 l hl).2
  rw [List.nil_append] at g1
  have hhead : ∀ H ∈ A.heads, ∀ l, head H xs (sees (true && decide (1 < xs.length)) t) xs[t] l = head H (xs.take (t + 1)) (sees false 0) xs[t] l := by
    intro H _ l
    rw [head_cut ht]
    by_cases h1 : 1 < xs.length
    · simp [h1]
    · have ht0 : t = 0 := by omega
      subst ht0
      unfold head
      refine attend_cut le_rfl (fun j hj => ?_) (fun j hj hj' => by omega)
      unfold sees
      constructor
      · intro _ _; omega
      · intro _ _; omega
  have hsame : multi A xs (sees (true && decide (1 < xs.length)) t) xs[t] l = multi A (xs.take (t + 1)) (sees false 0) xs[t] l := by
    unfold multi lin
    rw [Finset.sum_congr rfl fun k _ => by rw [side_congr hhead k]]
  change |val (y'.getD l 0) - multi A xs (sees (true && decide (1 < xs.length)) t) xs[t] l| ≤ _ at g2
  rw [hsame, abs_sub_comm] at g2
  have := abs_sub_le (val (y.getD l 0)) (multi A (xs.take (t + 1)) (sees false 0) xs[t] l) (val (y'.getD l 0))
  linarith

end Verif.Head32
