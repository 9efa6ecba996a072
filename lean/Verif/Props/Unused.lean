import Verif.Props.Tagger

set_option autoImplicit false
set_option linter.unusedSimpArgs false

/-!
# Parameters that a program does not use get no gradient

`TraverseParams` of an embedding model presents the words that have received a gradient; so it matters that the
other words receive none, not even zeros.
-/

namespace Verif.Tape
open GradFn Backward
open scoped BigOperators

variable {θ : Nat → Dense ℝ} {P : List Instr} {vals : List (Dense ℝ)}

theorem operand_call {c x : Fin P.length} (h : x ∈ (graph P).operands c) :
    ∃ f args, P[c.val]? = some (.call f args) ∧ x.val ∈ args := by
  have hc : P[c.val]? = some P[c] := List.getElem?_eq_getElem c.isLt
  simp only [Graph.operands, graph] at h
  cases e : P[c] with
  | leaf b => simp [e] at h
  | const v => simp [e] at h
  | stop j =>
    simp only [e] at h
    split at h
    · rename_i os hn
      split at hn <;> cases hn
    · cases h
  | call f args =>
    simp only [e, fins, List.mem_filterMap] at h
    obtain ⟨j, hj, hx⟩ := h
    refine ⟨f, args, by rw [hc, e], ?_⟩
    split at hx
    · cases hx; exact hj
    · cases hx

/-- A leaf that is not used for `y` keeps what it had. -/
theorem program_unused_grad (hrun : run θ P [] = some vals) {y : Nat}
    {s₀ s : St P.length (Nat → ℝ)} (hcl : Clean (graph P) s₀) (hlt : y < P.length)
    (hr : Reach (graph P) (progFns (graph P) (fns P) (valOf vals)) [⟨y, hlt⟩] s₀ s) (hm : s.main = .returned)
    {l : Fin P.length} (hl : P[l.val]? = some (.leaf true)) (hu : ¬ Feeds P y l.val) : s.grad l = s₀.grad l := by
  classical
  have hnode : (graph P).node l = .leaf true := node_leaf hl
  have hfeed : ∀ c, Reached (graph P) [⟨y, hlt⟩] c → Feeds P y c.val := by
    intro c hc
    induction hc with
    | out h _ _ => simp only [List.mem_singleton] at h; subst h; exact .self
    | @operand c x _ hx _ _ ih =>
      obtain ⟨f, args, h1, h2⟩ := operand_call hx
      exact .arg ih h1 h2
  have hch := backward_chain_rule (acyclic (ran_iff.mp hrun)) (progFns_atMost _) hcl hr hm l (by simp [Graph.isBlocker, hnode])
  have hseed : seeded (graph P) (progFns (graph P) (fns P) (valOf vals)) [⟨y, hlt⟩] s₀.grad l = s₀.grad l := by
    simp [seeded, Graph.isOp, hnode]
  rw [hseed, Finset.sum_eq_zero, add_zero] at hch
  · revert hch
    cases s.grad l <;> cases s₀.grad l <;> simp [amount]
  · intro c _
    split
    · rename_i hc
      unfold contrib
      split
      · rfl
      · rename_i g _
        refine List.sum_eq_zero fun v hv => ?_
        obtain ⟨p, hp, rfl⟩ := List.mem_map.mp hv
        refine if_neg fun e => hu ?_
        have hmem := (progFns_sublist c g).subset (List.mem_map.mpr ⟨p, hp, rfl⟩)
        rw [e] at hmem
        obtain ⟨f, args, h1, h2⟩ := operand_call hmem
        exact .arg (hfeed c hc) h1 h2
    · rfl

end Verif.Tape

namespace Verif.Record
open GradFn Backward Tape

/-- The code does not use tensor `l`, which exists already, and its result is as `Q` says. -/
def Avoids {α : Type} (l : Nat) (c : B α) (Q : α → Prop) : Prop :=
  ∀ n, l < n → (∀ f args, Instr.call f args ∈ (c n).2 → l ∉ args) ∧ Q (c n).1

variable {l : Nat} {α β : Type}

theorem Avoids.pure {a : α} {Q : α → Prop} (h : Q a) : Avoids l (Pure.pure a : B α) Q := fun _ _ =>
  ⟨fun _ _ h => absurd h List.not_mem_nil, h⟩

theorem Avoids.bind {c : B α} {k : α → B β} {Q : α → Prop} {R : β → Prop} (h : Avoids l c Q)
    (hk : ∀ a, Q a → Avoids l (k a) R) : Avoids l (c >>= k) R := by
  intro n hn
  obtain ⟨h1, h2⟩ := h n hn
  obtain ⟨h3, h4⟩ := hk _ h2 (n + (c n).2.length) (by omega)
  refine ⟨fun f args hm => ?_, h4⟩
  rcases List.mem_append.mp (show _ ∈ (c n).2 ++ (k (c n).1 (n + (c n).2.length)).2 from hm) with hm | hm
  · exact h1 f args hm
  · exact h3 f args hm

theorem Avoids.weaken {c : B α} {Q R : α → Prop} (h : Avoids l c Q) (hr : ∀ a, Q a → R a) : Avoids l c R :=
  fun n hn => ⟨(h n hn).1, hr _ (h n hn).2⟩

theorem Avoids.call {f : GradFn ℝ} {args : List Nat} (h : l ∉ args) : Avoids l (call f args) (l ≠ ·) := by
  intro n hn
  refine ⟨fun f' args' hm => ?_, Nat.ne_of_lt hn⟩
  simp only [Record.call, List.mem_singleton, Instr.call.injEq] at hm
  rw [hm.2]; exact h

theorem Avoids.const {c : ℝ} : Avoids l (const c) (l ≠ ·) := by
  intro n hn
  refine ⟨fun f' args' hm => ?_, Nat.ne_of_lt hn⟩
  simp [Record.const] at hm

theorem Avoids.fail : Avoids l fail (l ≠ ·) := by
  intro n hn
  refine ⟨fun f' args' hm => ?_, Nat.ne_of_lt hn⟩
  simp only [Record.fail, List.mem_singleton, Instr.call.injEq] at hm
  rw [hm.2]; simp

/-- One step through a program. -/
macro "avoid" : tactic => `(tactic| repeat' (first
  | exact Avoids.const
  | exact Avoids.fail
  | exact Avoids.call (by simp_all)
  | exact Avoids.pure (by simp_all)
  | refine Avoids.bind Avoids.const fun _ _ => ?_
  | refine Avoids.bind Avoids.fail fun _ _ => ?_
  | refine Avoids.bind (Avoids.call (by simp_all)) fun _ _ => ?_))

theorem each_avoids {f : Nat → B Nat} (hf : ∀ x, l ≠ x → Avoids l (f x) (l ≠ ·)) :
    ∀ {xs : List Nat}, l ∉ xs → Avoids l (each f xs) (l ∉ ·)
  | [], _ => Avoids.pure (by simp)
  | x :: xs, h => by
    refine Avoids.bind (hf x (by rintro rfl; simp at h)) fun y hy => ?_
    refine Avoids.bind (each_avoids hf (xs := xs) (by simp at h; exact h.2)) fun ys hys => ?_
    exact Avoids.pure (by simp [hy, hys])

theorem eachFrom_avoids {f : Nat → Nat → B Nat} (hf : ∀ t x, l ≠ x → Avoids l (f t x) (l ≠ ·)) :
    ∀ {xs : List Nat} (t : Nat), l ∉ xs → Avoids l (eachFrom f t xs) (l ∉ ·)
  | [], _, _ => Avoids.pure (by simp)
  | x :: xs, t, h => by
    refine Avoids.bind (hf t x (by rintro rfl; simp at h)) fun y hy => ?_
    refine Avoids.bind (eachFrom_avoids hf (xs := xs) (t + 1) (by simp at h; exact h.2)) fun ys hys => ?_
    exact Avoids.pure (by simp [hy, hys])

/-- `each` over indices, which are no tensors. -/
theorem each_avoids' {f : Nat → B Nat} : ∀ {xs : List Nat}, (∀ x ∈ xs, Avoids l (f x) (l ≠ ·)) → Avoids l (each f xs) (l ∉ ·)
  | [], _ => Avoids.pure (by simp)
  | x :: xs, h => by
    refine Avoids.bind (h x (by simp)) fun y hy => ?_
    refine Avoids.bind (each_avoids' (xs := xs) fun z hz => h z (by simp [hz])) fun ys hys => ?_
    exact Avoids.pure (by simp [hy, hys])

theorem addLoop_avoids : ∀ {ps xs : List Nat}, l ∉ ps → l ∉ xs → Avoids l (addLoop ps xs) (l ∉ ·)
  | [], _, _, _ => Avoids.pure (by simp)
  | _ :: _, [], _, _ => by unfold addLoop; avoid
  | p :: ps, x :: xs, h1, h2 => by
    simp only [List.mem_cons, not_or] at h1 h2
    refine Avoids.bind (Avoids.call (by simp [h1.1, h2.1])) fun y hy => ?_
    refine Avoids.bind (addLoop_avoids h1.2 h2.2) fun ys hys => ?_
    exact Avoids.pure (by simp [hy, hys])

theorem mergeLoop_avoids {mode : Recurrent.Merge} {pos neg : List Nat} (hp : l ∉ pos) (hn : l ∉ neg) :
    ∀ {is : List Nat}, Avoids l (mergeLoop mode pos neg is) (l ∉ ·)
  | [] => Avoids.pure (by simp)
  | i :: is => by
    unfold mergeLoop
    split
    · rename_i a b ha hb
      have ha' : l ≠ a := by rintro rfl; exact hp (List.mem_of_getElem? ha)
      have hb' : l ≠ b := by rintro rfl; exact hn (List.mem_of_getElem? hb)
      refine Avoids.bind (Q := (l ≠ ·)) ?_ fun y hy => ?_
      · cases mode <;> unfold merge <;> avoid
      · refine Avoids.bind (mergeLoop_avoids hp hn) fun ys hys => ?_
        exact Avoids.pure (by simp [hy, hys])
    · avoid

theorem birnn_avoids {mode : Recurrent.Merge} {p q : List Nat → B (List Nat)} (hp : ∀ xs, l ∉ xs → Avoids l (p xs) (l ∉ ·))
    (hq : ∀ xs, l ∉ xs → Avoids l (q xs) (l ∉ ·)) {xs : List Nat} (h : l ∉ xs) : Avoids l (birnn mode p q xs) (l ∉ ·) := by
  refine Avoids.bind (hp xs h) fun ps hps => ?_
  refine Avoids.bind (hq _ (by rw [BiRNN.reversed_eq]; simpa using h)) fun ns hns => ?_
  exact mergeLoop_avoids hps hns

theorem loop_avoids {S : Type} {next : Option S → Nat → B S} {out : S → Nat} {Q : S → Prop}
    (hn : ∀ s x, (∀ a, s = some a → Q a) → l ≠ x → Avoids l (next s x) Q) (ho : ∀ s, Q s → l ≠ out s) :
    ∀ {xs : List Nat} {s : Option S}, (∀ a, s = some a → Q a) → l ∉ xs →
      Avoids l (loop next out s xs) (fun r => l ∉ r.1)
  | [], s, _, _ => Avoids.pure (by simp)
  | x :: xs, s, hs, h => by
    simp only [List.mem_cons, not_or] at h
    refine Avoids.bind (hn s x hs h.1) fun s' hs' => ?_
    refine Avoids.bind (loop_avoids hn ho (s := some s') (by rintro a ⟨⟩; exact hs') h.2) fun r hr => ?_
    exact Avoids.pure (by simp [hr, ho s' hs'])

theorem forward_avoids {S : Type} {next : Option S → Nat → B S} {out : S → Nat} {Q : S → Prop}
    (hn : ∀ s x, (∀ a, s = some a → Q a) → l ≠ x → Avoids l (next s x) Q) (ho : ∀ s, Q s → l ≠ out s) {xs : List Nat}
    (h : l ∉ xs) : Avoids l (forward next out xs) (l ∉ ·) :=
  Avoids.bind (loop_avoids hn ho (by simp) h) fun _ hr => Avoids.pure hr

/-- The tensors of a gate are others. -/
def Gate.Apart (l : Nat) (g : Gate) : Prop := l ≠ g.w ∧ l ≠ g.wRec ∧ l ≠ g.b

theorem affine_avoids {g : Gate} (hg : g.Apart l) {x : Nat} (hx : l ≠ x) {y : Option Nat} (hy : ∀ a, y = some a → l ≠ a) :
    Avoids l (g.affine x y) (l ≠ ·) := by
  obtain ⟨h1, h2, h3⟩ := hg
  cases y with
  | none => exact Avoids.call (by simp [h1, h2, h3, hx])
  | some a => exact Avoids.call (by simp [h1, h2, h3, hx, hy a rfl])

theorem gateAt_apart {k : Nat} (h : k + 3 ≤ l) : (gateAt k).Apart l :=
  ⟨by simp [gateAt]; omega, by simp [gateAt]; omega, by simp [gateAt]; omega⟩

theorem srn_avoids {m : Gate} (hm : m.Apart l) (s : Option Nat) (x : Nat) (hs : ∀ a, s = some a → l ≠ a) (hx : l ≠ x) :
    Avoids l (srnNext m s x) (l ≠ ·) :=
  Avoids.bind (affine_avoids hm hx hs) fun a ha => Avoids.call (by simp [ha])

theorem gru_avoids {m : GRU} (h1 : m.part.Apart l) (h2 : m.res.Apart l) (h3 : m.cand.Apart l) (s : Option GRUState) (x : Nat)
    (hs : ∀ a, s = some a → l ≠ a.y) (hx : l ≠ x) : Avoids l (gruNext m s x) (l ≠ ·.y) := by
  have hy : ∀ a, s.map GRUState.y = some a → l ≠ a := by
    intro a ha
    obtain ⟨b, hb, rfl⟩ := Option.map_eq_some_iff.mp ha
    exact hs b hb
  unfold gruNext
  generalize s.map GRUState.y = yPrev at hy
  refine Avoids.bind (affine_avoids h2 hx hy) fun ar har => ?_
  refine Avoids.bind (Avoids.call (by simp [har])) fun r hr => ?_
  refine Avoids.bind (affine_avoids h1 hx hy) fun ap hap => ?_
  refine Avoids.bind (Avoids.call (by simp [hap])) fun p hp => ?_
  refine Avoids.bind (Q := fun ry => ∀ a, ry = some a → l ≠ a) ?_ fun ry hry => ?_
  · cases yPrev with
    | none => exact Avoids.pure (by simp)
    | some a =>
      have := hy a rfl
      exact Avoids.bind (Avoids.call (by simp [hr, this])) fun p hp => Avoids.pure (by rintro a ⟨⟩; exact hp)
  refine Avoids.bind (affine_avoids h3 hx hry) fun ac hac => ?_
  refine Avoids.bind (Avoids.call (by simp [hac])) fun c hc => ?_
  refine Avoids.bind (Avoids.call (by simp [hp, hc])) fun y hy' => ?_
  cases yPrev with
  | none => exact Avoids.pure hy'
  | some a =>
    have := hy a rfl
    avoid

theorem lstm_avoids {m : LSTM} (h1 : m.inp.Apart l) (h2 : m.outp.Apart l) (h3 : m.forg.Apart l) (h4 : m.cand.Apart l)
    (s : Option LSTMState) (x : Nat) (hs : ∀ a, s = some a → l ≠ a.y ∧ l ≠ a.cell) (hx : l ≠ x) :
    Avoids l (lstmNext m s x) (fun a => l ≠ a.y ∧ l ≠ a.cell) := by
  have hy : ∀ a, s.map LSTMState.y = some a → l ≠ a := by
    intro a ha
    obtain ⟨b, hb, rfl⟩ := Option.map_eq_some_iff.mp ha
    exact (hs b hb).1
  have hc : ∀ a, s.map LSTMState.cell = some a → l ≠ a := by
    intro a ha
    obtain ⟨b, hb, rfl⟩ := Option.map_eq_some_iff.mp ha
    exact (hs b hb).2
  unfold lstmNext
  generalize s.map LSTMState.y = yPrev at hy
  generalize s.map LSTMState.cell = cellPrev at hc
  refine Avoids.bind (affine_avoids h1 hx hy) fun _ _ => ?_
  refine Avoids.bind (Avoids.call (by simp_all)) fun i hi => ?_
  refine Avoids.bind (affine_avoids h2 hx hy) fun _ _ => ?_
  refine Avoids.bind (Avoids.call (by simp_all)) fun o ho => ?_
  refine Avoids.bind (affine_avoids h3 hx hy) fun _ _ => ?_
  refine Avoids.bind (Avoids.call (by simp_all)) fun f hf => ?_
  refine Avoids.bind (affine_avoids h4 hx hy) fun _ _ => ?_
  refine Avoids.bind (Avoids.call (by simp_all)) fun c hc' => ?_
  refine Avoids.bind (Q := (l ≠ ·)) (by split <;> avoid) fun i' hi' => ?_
  refine Avoids.bind (Q := (l ≠ ·)) (by split <;> avoid) fun o' ho' => ?_
  refine Avoids.bind (Avoids.call (by simp [hi', hc'])) fun ic hic => ?_
  refine Avoids.bind (Q := (l ≠ ·)) ?_ fun cell hcell => ?_
  · cases cellPrev with
    | none => exact Avoids.pure hic
    | some a =>
      have := hc a rfl
      avoid
  refine Avoids.bind (Avoids.call (by simp [hcell])) fun t ht => ?_
  refine Avoids.bind (Avoids.call (by simp [ho', ht])) fun y hy' => ?_
  exact Avoids.pure ⟨hy', hcell⟩

/-- A network uses its own parameters and its inputs only. -/
theorem net_avoids {i o : Nat} (N : Net i o) {k : Nat} {xs : List Nat} (hk : k + N.size ≤ l) (hx : l ∉ xs) :
    Avoids l (N.code k xs) (l ∉ ·) := by
  induction N generalizing k xs with
  | linear i o =>
    simp only [Net.size] at hk
    exact each_avoids (fun x hx => Avoids.call (by simp [hx]; omega)) hx
  | act p d => exact each_avoids (fun x hx => Avoids.call (by simp [hx])) hx
  | softmax d => exact each_avoids (fun x hx => Avoids.call (by simp [hx])) hx
  | layerNorm eps d =>
    simp only [Net.size] at hk
    have h1 : l ≠ k := by omega
    have h2 : l ≠ k + 1 := by omega
    exact each_avoids (fun x hx => by unfold layerNorm; avoid) hx
  | rmsNorm d =>
    simp only [Net.size] at hk
    have h1 : l ≠ k := by omega
    have h2 : l ≠ k + 1 := by omega
    exact each_avoids (fun x hx => by unfold rmsNorm; avoid) hx
  | logSoftmax d => exact each_avoids (fun x hx => by avoid) hx
  | layerNormSimple d => exact each_avoids (fun x hx => by unfold layerNormSimple; avoid) hx
  | fixNorm d => exact each_avoids (fun x hx => by unfold fixNorm; avoid) hx
  | scaleNorm d =>
    simp only [Net.size] at hk
    have h1 : l ≠ k := by omega
    exact each_avoids (fun x hx => Avoids.bind (by unfold fixNorm; avoid) fun z hz => Avoids.call (by simp [hz, h1])) hx
  | sqrDist i r =>
    simp only [Net.size] at hk
    have h1 : l ≠ k := by omega
    exact each_avoids (fun x hx => by unfold sqrDist; avoid) hx
  | causal f i d e =>
    simp only [Net.size] at hk
    have hlin : ∀ w b, l ≠ w → l ≠ b → Avoids l (linear w b xs) (l ∉ ·) := fun w b hw hb =>
      each_avoids (fun x hx => Avoids.call (by simp [hx, hw, hb])) hx
    refine Avoids.bind (hlin _ _ (by omega) (by omega)) fun q hq => ?_
    refine Avoids.bind (hlin _ _ (by omega) (by omega)) fun ks hks => ?_
    refine Avoids.bind (hlin _ _ (by omega) (by omega)) fun v hv => ?_
    refine Avoids.bind (Avoids.call hks) fun pk hpk => ?_
    refine Avoids.bind (Avoids.call hv) fun pv hpv => ?_
    refine Avoids.bind Avoids.const fun c hc => ?_
    split
    · exact eachFrom_avoids (fun t x hx => by unfold attendCausal; avoid) 0 hq
    · exact each_avoids (fun x hx => by unfold attend; avoid) hq
  | highway p d =>
    simp only [Net.size] at hk
    have h1 : l ≠ k := by omega
    have h2 : l ≠ k + 1 := by omega
    have h3 : l ≠ k + 2 := by omega
    have h4 : l ≠ k + 3 := by omega
    exact each_avoids (fun x hx => by unfold highway; avoid) hx
  | srn i o =>
    simp only [Net.size] at hk
    exact forward_avoids (srn_avoids (gateAt_apart hk)) (fun _ h => h) hx
  | gru i o =>
    simp only [Net.size] at hk
    exact forward_avoids (gru_avoids (gateAt_apart (by omega)) (gateAt_apart (by omega)) (gateAt_apart (by omega)))
      (fun _ h => h) hx
  | lstm i o =>
    simp only [Net.size] at hk
    exact forward_avoids (lstm_avoids (gateAt_apart (by omega)) (gateAt_apart (by omega)) (gateAt_apart (by omega))
      (gateAt_apart (by omega))) (fun _ h => h.1) hx
  | lstmRefined d =>
    simp only [Net.size] at hk
    exact forward_avoids (lstm_avoids (gateAt_apart (by omega)) (gateAt_apart (by omega)) (gateAt_apart (by omega))
      (gateAt_apart (by omega))) (fun _ h => h.1) hx
  | attention f i d e =>
    simp only [Net.size] at hk
    have hlin : ∀ w b, l ≠ w → l ≠ b → Avoids l (linear w b xs) (l ∉ ·) := fun w b hw hb =>
      each_avoids (fun x hx => Avoids.call (by simp [hx, hw, hb])) hx
    refine Avoids.bind (hlin _ _ (by omega) (by omega)) fun q hq => ?_
    refine Avoids.bind (hlin _ _ (by omega) (by omega)) fun ks hks => ?_
    refine Avoids.bind (hlin _ _ (by omega) (by omega)) fun v hv => ?_
    refine Avoids.bind (Avoids.call hks) fun pk hpk => ?_
    refine Avoids.bind (Avoids.call hv) fun pv hpv => ?_
    refine Avoids.bind Avoids.const fun c hc => ?_
    exact each_avoids (fun x hx => by unfold attend; avoid) hq
  | seq p q ihp ihq =>
    simp only [Net.size] at hk
    exact Avoids.bind (ihp (by omega) hx) fun ys hys => ihq (by omega) hys
  | residual p ih =>
    simp only [Net.size] at hk
    exact Avoids.bind (ih hk hx) fun ys hys => addLoop_avoids hys hx
  | sum p q ihp ihq =>
    simp only [Net.size] at hk
    exact birnn_avoids (fun ys hys => ihp (by omega) hys) (fun ys hys => ihq (by omega) hys) hx
  | prod p q ihp ihq =>
    simp only [Net.size] at hk
    exact birnn_avoids (fun ys hys => ihp (by omega) hys) (fun ys hys => ihq (by omega) hys) hx
  | avg p q ihp ihq =>
    simp only [Net.size] at hk
    exact birnn_avoids (fun ys hys => ihp (by omega) hys) (fun ys hys => ihq (by omega) hys) hx
  | concat p q ihp ihq =>
    simp only [Net.size] at hk
    exact birnn_avoids (fun ys hys => ihp (by omega) hys) (fun ys hys => ihq (by omega) hys) hx

/-! ### The losses -/

theorem index_avoids {xs : List Nat} (h : l ∉ xs) (i : Nat) : Avoids l (index xs i) (l ≠ ·) := by
  unfold index
  split
  · rename_i x hx
    exact Avoids.pure (by rintro rfl; exact h (List.mem_of_getElem? hx))
  · exact Avoids.fail

theorem crfGoldLoop_avoids {tr : Nat} (ht : l ≠ tr) : ∀ {xs : List Nat} {ts : List Int} {prev : Int} {g : Nat}, l ∉ xs → l ≠ g →
    Avoids l (crfGoldLoop tr xs ts prev g) (l ≠ ·)
  | xs, [], prev, g, _, hg => by unfold crfGoldLoop; avoid
  | [], t :: ts, prev, g, _, hg => by unfold crfGoldLoop; avoid
  | x :: xs, t :: ts, prev, g, h, hg => by
    simp only [List.mem_cons, not_or] at h
    unfold crfGoldLoop
    refine Avoids.bind (Avoids.call (by simp [h.1])) fun a ha => ?_
    refine Avoids.bind (Avoids.call (by simp [hg, ha])) fun g1 hg1 => ?_
    refine Avoids.bind (Avoids.call (by simp [ht])) fun b hb => ?_
    refine Avoids.bind (Avoids.call (by simp [hb, hg1])) fun g2 hg2 => ?_
    exact crfGoldLoop_avoids ht h.2 hg2

theorem crfRow_avoids {tr size i node : Nat} {step : List Nat} {scores : List (Option Nat)} (ht : l ≠ tr) (hn : l ≠ node)
    (hs : l ∉ step) (hsc : some l ∉ scores) : Avoids l (crfRow tr size i node step scores) (l ∉ ·) := by
  refine each_avoids' fun j _ => ?_
  refine Avoids.bind (index_avoids hs j) fun x hx => ?_
  refine Avoids.bind (Avoids.call (by simp [hn, hx])) fun v hv => ?_
  refine Avoids.bind (Avoids.call (by simp [ht])) fun b hb => ?_
  refine Avoids.bind (Avoids.call (by simp [hv, hb])) fun w hw => ?_
  refine Avoids.bind (Avoids.call (by simp [hw])) fun e he => ?_
  cases h : scores.getD j none with
  | none => exact Avoids.call (by simp [he])
  | some a =>
    have : l ≠ a := by
      rintro rfl
      rw [List.getD_eq_getElem?_getD] at h
      cases h' : scores[j]? with
      | none => rw [h'] at h; cases h
      | some b => rw [h'] at h; cases h; exact hsc (List.mem_of_getElem? h')
    exact Avoids.call (by simp [he, this])

theorem crfRows_avoids {tr size : Nat} {total step : List Nat} (ht : l ≠ tr) (hto : l ∉ total) (hs : l ∉ step) :
    ∀ {is : List Nat} {scores : List (Option Nat)}, some l ∉ scores →
      Avoids l (crfRows tr size total step is scores) (some l ∉ ·)
  | [], _, h => Avoids.pure h
  | i :: is, _, h => by
    refine Avoids.bind (index_avoids hto i) fun node hn => ?_
    refine Avoids.bind (crfRow_avoids ht hn hs h) fun r hr => ?_
    exact crfRows_avoids ht hto hs (by simpa using hr)

theorem crfSteps_avoids {tr size : Nat} (ht : l ≠ tr) : ∀ {xs total : List Nat}, l ∉ total → l ∉ xs →
    Avoids l (crfSteps tr size total xs) (l ∉ ·)
  | [], _, h, _ => Avoids.pure h
  | x :: xs, total, h, hx => by
    simp only [List.mem_cons, not_or] at hx
    refine Avoids.bind (each_avoids' fun i _ => Avoids.call (by simp [hx.1])) fun step hs => ?_
    refine Avoids.bind (Q := (l ∉ ·)) ?_ fun total' h' => crfSteps_avoids ht h' hx.2
    refine Avoids.bind (crfRows_avoids ht h hs (by simp [List.mem_replicate])) fun sc hsc => ?_
    refine each_avoids' fun i _ => ?_
    cases e : sc.getD i none with
    | none => exact Avoids.fail
    | some a =>
      refine Avoids.call ?_
      simp only [List.mem_singleton]
      rintro rfl
      rw [List.getD_eq_getElem?_getD] at e
      cases h' : sc[i]? with
      | none => rw [h'] at e; cases e
      | some b => rw [h'] at e; cases e; exact hsc (List.mem_of_getElem? h')

theorem crfTotal_avoids {tr size : Nat} (ht : l ≠ tr) : ∀ {xs : List Nat}, l ∉ xs → Avoids l (crfTotal tr size xs) (l ≠ ·)
  | [], _ => Avoids.fail
  | x :: xs, h => by
    simp only [List.mem_cons, not_or] at h
    refine Avoids.bind (each_avoids' fun i _ => ?_) fun t1 h1 => ?_
    · have := h.1
      avoid
    refine Avoids.bind (crfSteps_avoids ht h1 h.2) fun t2 h2 => ?_
    refine Avoids.bind (each_avoids' fun i _ => ?_) fun t3 h3 => ?_
    · refine Avoids.bind (index_avoids h2 i) fun x hx => ?_
      unfold addMaybe
      avoid
    refine Avoids.bind (Avoids.call h3) fun c hc => ?_
    avoid

theorem crfLoss_avoids {tr size : Nat} (ht : l ≠ tr) {xs : List Nat} (hx : l ∉ xs) (ys : List Int) :
    Avoids l (crfLoss tr size xs ys) (l ≠ ·) := by
  refine Avoids.bind (Q := (l ≠ ·)) ?_ fun g hg => ?_
  · unfold crfGold
    split
    · simp only [List.mem_cons, not_or] at hx
      have := hx.1
      refine Avoids.bind (Avoids.call (by simp [this])) fun a ha => ?_
      refine Avoids.bind (Avoids.call (by simp [ht])) fun b hb => ?_
      refine Avoids.bind (Avoids.call (by simp [ha, hb])) fun g hg => ?_
      exact crfGoldLoop_avoids ht hx.2 hg
    · exact Avoids.fail
  exact Avoids.bind (crfTotal_avoids ht hx) fun t ht => Avoids.call (by simp [ht, hg])

theorem weighted_avoids {w : Dense ℝ} {c : Int} {ce : Nat} (h : l ≠ ce) : Avoids l (weighted w c ce) (l ≠ ·) := by
  unfold weighted
  split <;> avoid

theorem focus_avoids {gamma : ℝ} {ce : Nat} (h : l ≠ ce) : Avoids l (focus gamma ce) (l ≠ ·) := by
  unfold focus; avoid

theorem classLoss_avoids (loss : ClassLoss) {x : Nat} (h : l ≠ x) (c : Int) : Avoids l (loss.code x c) (l ≠ ·) := by
  refine Avoids.bind (Q := (l ≠ ·)) ?_ fun ce hce => ?_
  · unfold Record.crossEntropy
    refine Avoids.bind (Avoids.call (by simp [h])) fun a ha => ?_
    refine Avoids.bind (Avoids.call (by simp [ha])) fun b hb => ?_
    refine Avoids.bind (Q := (l ≠ ·)) (by unfold logSumExp; avoid) fun d hd => ?_
    avoid
  · cases loss with
    | crossEntropy => exact Avoids.pure hce
    | weightedCrossEntropy w => exact weighted_avoids hce
    | focal g => exact focus_avoids hce
    | weightedFocal w g => exact Avoids.bind (focus_avoids hce) fun f hf => weighted_avoids hf
    | perplexity => exact Avoids.call (by simp [hce])

theorem seqLoop_avoids {T : Type} {elem : Nat → T → B Nat} (he : ∀ x t, l ≠ x → Avoids l (elem x t) (l ≠ ·)) :
    ∀ {xs : List Nat} {ts : List T} {a : Nat}, l ∉ xs → l ≠ a → Avoids l (seqLoop elem xs ts a) (l ≠ ·)
  | [], _, a, _, h => by unfold seqLoop; exact Avoids.pure h
  | _ :: _, [], _, _, _ => by unfold seqLoop; exact Avoids.fail
  | x :: xs, t :: ts, a, h, ha => by
    simp only [List.mem_cons, not_or] at h
    refine Avoids.bind (he x t h.1) fun y hy => ?_
    exact Avoids.bind (Avoids.call (by simp [ha, hy])) fun b hb => seqLoop_avoids he h.2 hb

theorem lossSeq_avoids {T : Type} {elem : Nat → T → B Nat} (he : ∀ x t, l ≠ x → Avoids l (elem x t) (l ≠ ·))
    {xs : List Nat} {ts : List T} (h : l ∉ xs) (mean : Bool) : Avoids l (lossSeq elem xs ts mean) (l ≠ ·) := by
  unfold lossSeq
  split
  · simp only [List.mem_cons, not_or] at h
    refine Avoids.bind (he _ _ h.1) fun y hy => ?_
    refine Avoids.bind (seqLoop_avoids he h.2 hy) fun z hz => ?_
    split <;> avoid
  · exact Avoids.fail

/-! ### What a sample does not use keeps its gradient -/

/-- A parameter that the code of a sample does not use does not feed its result. -/
theorem not_feeds {q : Sample} {k : Nat} (hl : l < k) (h : Avoids l q.code (l ≠ ·)) :
    ¬ Feeds (q.program k) (q.result k) l := by
  obtain ⟨h1, h2⟩ := h (k + q.inputs) (by omega)
  have key : ∀ {x}, Feeds (q.program k) (q.result k) x → x ≠ l := by
    intro x hx
    induction hx with
    | self => exact fun e => h2 e.symm
    | arg _ hc ha _ =>
      rintro rfl
      have hm := List.mem_of_getElem? hc
      simp only [Sample.program, program, List.mem_append, List.mem_replicate] at hm
      rcases hm with hm | hm | hm
      · exact absurd hm.2 (by simp)
      · exact absurd hm.2 (by simp)
      · exact h1 _ _ hm ha
  exact fun hf => key hf rfl

/-- The loop over samples that do not use a parameter leaves its gradient as it is: none stays none. -/
theorem learn_unused {k : Nat} {w : Nat → Dense ℝ} {qs : List Sample} {γ γ' : Nat → Option (Nat → ℝ)} (hl : Learn k w qs γ γ')
    {x : Nat} (hx : x < k) (h : ∀ q ∈ qs, Avoids x q.code (x ≠ ·)) : γ' x = γ x := by
  induction hl with
  | nil => rfl
  | @cons q qs γ γ' vals s₀ s hlt hrun hcl hg0 hr hm hl ih =>
    rw [ih fun q hq => h q (by simp [hq])]
    have hxl : x < (q.program k).length := lt_of_lt_of_le hx (program_length q k)
    have hleaf : (q.program k)[x]? = some (.leaf true) := by
      rw [Sample.program, program, List.getElem?_append_left (by simpa using hx), List.getElem?_replicate, if_pos hx]
    have := program_unused_grad hrun hcl hlt hr hm (l := ⟨x, hxl⟩) hleaf (not_feeds hx (h q (by simp)))
    simp only [gradOf, dif_pos hxl]
    rw [this, hg0, if_pos hx]

theorem words_avoid {base size : Nat} {words : List Nat} {x : Nat} (h : x ∉ words) :
    Avoids (base + x) (encodeWords base size (ints words)) (base + x ∉ ·) := by
  unfold encodeWords
  split
  · refine Avoids.pure ?_
    simp only [ints, List.map_map, List.mem_map, Function.comp_apply, Int.toNat_natCast, not_exists, not_and]
    intro y hy e
    exact h ((show y = x by omega) ▸ hy)
  · exact Avoids.bind Avoids.fail fun y hy => Avoids.pure (by simpa using hy)

/-- **C83, other words.** The vector of a word that occurs in no sentence of the batch is not given a gradient, not even
one of zeros: whatever the network and the parameters. -/
theorem crf_tagger_untouched {i o size : Nat} (N : Net i o) {w : Nat → Dense ℝ} {batch : List Sentence}
    {γ γ' : Nat → Option (Nat → ℝ)} (hl : Learn (N.size + 1 + size) w (batch.map (·.crfSample N size)) γ γ')
    {x : Nat} (hx : x < size) (hun : ∀ q ∈ batch, x ∉ q.words) : γ' (N.size + 1 + x) = γ (N.size + 1 + x) := by
  refine learn_unused hl (by omega) fun s hs => ?_
  obtain ⟨q, hq, rfl⟩ := List.mem_map.mp hs
  refine Avoids.bind (words_avoid (hun q hq)) fun xs hxs => ?_
  refine Avoids.bind (net_avoids N (by omega) hxs) fun ys hys => ?_
  exact crfLoss_avoids (by omega) hys _

/-- **C83, other words**, for the tagger that classifies every word. -/
theorem class_tagger_untouched {i o size : Nat} (N : Net i o) (loss : ClassLoss) (mean : Bool) {w : Nat → Dense ℝ}
    {batch : List Sentence} {γ γ' : Nat → Option (Nat → ℝ)}
    (hl : Learn (N.size + size) w (batch.map (·.classSample N size loss mean)) γ γ')
    {x : Nat} (hx : x < size) (hun : ∀ q ∈ batch, x ∉ q.words) : γ' (N.size + x) = γ (N.size + x) := by
  refine learn_unused hl (by omega) fun s hs => ?_
  obtain ⟨q, hq, rfl⟩ := List.mem_map.mp hs
  refine Avoids.bind (words_avoid (hun q hq)) fun xs hxs => ?_
  refine Avoids.bind (net_avoids N (by omega) hxs) fun ys hys => ?_
  exact lossSeq_avoids (fun x t hx => classLoss_avoids loss hx t) hys mean

/-- Of the two words of the small tagger only the second occurs; the first has no gradient after the loop. -/
example : ∃ γ, Learn 5 smallTagger ([(⟨[1], [0]⟩ : Sentence)].map (·.crfSample (.linear 1 2) 2)) (fun _ => none) γ ∧
    γ 3 = none := by
  obtain ⟨γ, hl, -⟩ := small_tagger_learns
  exact ⟨γ, hl, crf_tagger_untouched (size := 2) (batch := [⟨[1], [0]⟩]) (.linear 1 2) hl (x := 0) (by omega)
    (by simp)⟩

end Verif.Record
