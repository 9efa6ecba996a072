import Verif.Props.Record
import Verif.Props.Losses

set_option autoImplicit false
set_option linter.unusedSimpArgs false

/-!
# The recorded layers and losses compute what the value models compute
-/

namespace Verif.Record
open GradFn Backward Tape

variable {s : Prop} {θ : Nat → Dense ℝ} {st : State}

/-- The relation of results of operators. -/
abbrev New (st : State) : State → Nat → Dense ℝ → Prop := fun st' i v => D st' i v ∧ st.length ≤ i

theorem call1 {f : GradFn ℝ} {i : Nat} {x : Dense ℝ} (h : D st i x) (hs : s → ∀ act, Safe act f [x]) :
    Sim s θ st (call f [i]) (f.forward [x]) (New st) :=
  Sim.call (.cons h.v .nil) ⟨i, by simp, x, h⟩ hs

theorem call2 {f : GradFn ℝ} {i j : Nat} {x y : Dense ℝ} (h : D st i x) (h' : V st j y)
    (hs : s → ∀ act, Safe act f [x, y]) : Sim s θ st (call f [i, j]) (f.forward [x, y]) (New st) :=
  Sim.call (.cons h.v (.cons h' .nil)) ⟨i, by simp, x, h⟩ hs

theorem call2r {f : GradFn ℝ} {i j : Nat} {x y : Dense ℝ} (h : V st i x) (h' : D st j y)
    (hs : s → ∀ act, Safe act f [x, y]) : Sim s θ st (call f [i, j]) (f.forward [x, y]) (New st) :=
  Sim.call (.cons h (.cons h'.v .nil)) ⟨j, by simp, y, h'⟩ hs

/-! ### Gates -/

/-- The gate with the parameters `G`. -/
structure IsGate (st : State) (g : Gate) (G : Recurrent.Gate) : Prop where
  w : D st g.w G.w
  wRec : D st g.wRec G.wRec
  b : D st g.b G.b

theorem IsGate.mono {g : Gate} {G : Recurrent.Gate} (h : IsGate st g G) (st' : State) : IsGate (st ++ st') g G :=
  ⟨h.w.mono st', h.wRec.mono st', h.b.mono st'⟩

/-- The same for a tensor that may be nil. -/
def Maybe (st : State) : Option Nat → Option (Dense ℝ) → Prop
  | none, none => True
  | some i, some v => D st i v
  | _, _ => False

theorem Maybe.mono {i : Option Nat} {v : Option (Dense ℝ)} (h : Maybe st i v) (st' : State) : Maybe (st ++ st') i v := by
  cases i <;> cases v
  · trivial
  · exact h.elim
  · exact h.elim
  · exact D.mono h st'

theorem affine_sim {g : Gate} {G : Recurrent.Gate} {x : Nat} {X : Dense ℝ} {y : Option Nat} {Y : Option (Dense ℝ)}
    (hg : IsGate st g G) (hx : V st x X) (hy : Maybe st y Y) :
    Sim s θ st (g.affine x y) (G.affine X Y) (New st) := by
  cases y <;> cases Y
  · exact Sim.call (.cons hg.b.v (.cons hg.w.v (.cons hx .nil))) ⟨g.b, by simp, _, hg.b⟩ fun _ _ => .affine
  · exact hy.elim
  · exact hy.elim
  · exact Sim.call (.cons hg.b.v (.cons hg.w.v (.cons hx (.cons hg.wRec.v (.cons (D.v hy) .nil)))))
      ⟨g.b, by simp, _, hg.b⟩ fun _ _ => .affine

/-! ### The loop over a sequence -/

/-- Inputs, in order. -/
def Inputs (st : State) : List Nat → List (Dense ℝ) → Prop := List.Forall₂ (V st)

theorem Inputs.mono {is : List Nat} {xs : List (Dense ℝ)} (h : Inputs st is xs) (st' : State) : Inputs (st ++ st') is xs :=
  List.Forall₂.imp (fun _ _ h => V.mono h st') h

/-- Results, in order. -/
def Outputs (st : State) : List Nat → List (Dense ℝ) → Prop := List.Forall₂ (D st)

theorem Outputs.mono {is : List Nat} {xs : List (Dense ℝ)} (h : Outputs st is xs) (st' : State) :
    Outputs (st ++ st') is xs :=
  List.Forall₂.imp (fun _ _ h => D.mono h st') h

/-- The relation of optional states. -/
def MaybeState {S T : Type} (R : State → S → T → Prop) (st : State) : Option S → Option T → Prop
  | none, none => True
  | some a, some b => R st a b
  | _, _ => False

theorem loop_sim {S T : Type} {next : Option S → Nat → B S} {out : S → Nat}
    {next' : Option T → Dense ℝ → Option T} {out' : T → Dense ℝ} {R : State → S → T → Prop} {M : State → Prop}
    (hM : ∀ st st', M st → M (st ++ st'))
    (hR : ∀ st st' a b, R st a b → R (st ++ st') a b)
    (hout : ∀ st a b, R st a b → D st (out a) (out' b))
    (hnext : ∀ st a b i x, M st → MaybeState R st a b → V st i x → Sim s θ st (next a i) (next' b x) R) :
    ∀ {is : List Nat} {xs : List (Dense ℝ)} {st : State} {a : Option S} {b : Option T}, M st → MaybeState R st a b →
      Inputs st is xs → Sim s θ st (loop next out a is) (Recurrent.run next' out' b xs)
        (fun st r r' => Outputs st r.1 r'.1)
  | [], [], st, a, b, _, _, _ => Sim.pure List.Forall₂.nil
  | i :: is, x :: xs, st, a, b, hm, hab, .cons hi his => by
    refine Sim.bind (hnext st a b i x hm hab hi) fun st₁ a' b' _ h => ?_
    refine Sim.bind (loop_sim hM hR hout hnext (hM _ _ hm) (show MaybeState R _ (some a') (some b') from h)
      (Inputs.mono his st₁)) fun st₂ r r' _ h' => ?_
    exact Sim.pure (List.Forall₂.cons ((hout _ _ _ h).mono st₂) h')

theorem forward_sim {S T : Type} {next : Option S → Nat → B S} {out : S → Nat}
    {next' : Option T → Dense ℝ → Option T} {out' : T → Dense ℝ} {R : State → S → T → Prop} {M : State → Prop}
    (hM : ∀ st st', M st → M (st ++ st'))
    (hR : ∀ st st' a b, R st a b → R (st ++ st') a b)
    (hout : ∀ st a b, R st a b → D st (out a) (out' b))
    (hnext : ∀ st a b i x, M st → MaybeState R st a b → V st i x → Sim s θ st (next a i) (next' b x) R)
    {is : List Nat} {xs : List (Dense ℝ)} (hm : M st) (hi : Inputs st is xs) :
    Sim s θ st (forward next out is) (Recurrent.forward next' out' xs) Outputs := by
  refine Sim.bind (loop_sim hM hR hout hnext hm (show MaybeState R st none none from trivial) hi) fun st₁ r r' _ h => ?_
  exact Sim.pure h

/-! ### Simple recurrent network -/

theorem srn_sim {g : Gate} {G : Recurrent.Gate} {y : Option Nat} {Y : Option (Dense ℝ)} {x : Nat} {X : Dense ℝ}
    (hg : IsGate st g G) (hy : Maybe st y Y) (hx : V st x X) :
    Sim s θ st (srnNext g y x) (Recurrent.srnNext G Y X) D := by
  refine Sim.bind (affine_sim hg hx hy) fun st₁ a A _ h => ?_
  exact (call1 h.1 fun _ _ => .tanh).weaken fun _ _ _ _ h => h.1

theorem srn_forward {g : Gate} {G : Recurrent.Gate} {is : List Nat} {xs : List (Dense ℝ)} (hg : IsGate st g G)
    (hi : Inputs st is xs) :
    Sim s θ st (forward (srnNext g) id is) (Recurrent.forward (Recurrent.srnNext G) id xs) Outputs := by
  refine forward_sim (R := D) (M := fun st => IsGate st g G) (fun st st' h => h.mono st')
    (fun st st' a b h => h.mono st') (fun st a b h => h) ?_ hg hi
  intro st a b i x hm hab hx
  refine srn_sim hm ?_ hx
  cases a <;> cases b
  · trivial
  · exact hab.elim
  · exact hab.elim
  · exact hab

/-! ### GRU -/

structure IsGRU (st : State) (m : GRU) (M : Recurrent.GRU) : Prop where
  part : IsGate st m.part M.part
  res : IsGate st m.res M.res
  cand : IsGate st m.cand M.cand

theorem IsGRU.mono {m : GRU} {M : Recurrent.GRU} (h : IsGRU st m M) (st' : State) : IsGRU (st ++ st') m M :=
  ⟨h.part.mono st', h.res.mono st', h.cand.mono st'⟩

theorem tryProd_sim {y : Option Nat} {Y : Option (Dense ℝ)} {r : Nat} {R : Dense ℝ} (hy : Maybe st y Y) (hr : D st r R) :
    Sim s θ st (tryProd y r) (Recurrent.tryProd Y R) Maybe := by
  cases y <;> cases Y
  · exact Sim.pure trivial
  · exact hy.elim
  · exact hy.elim
  · refine Sim.bind (call2 hy hr.v fun _ _ => .prod) fun st₁ a b _ h => ?_
    exact Sim.pure h.1

theorem gru_sim {m : GRU} {M : Recurrent.GRU} {a : Option GRUState} {b : Option Recurrent.GRUState} {x : Nat} {X : Dense ℝ}
    (hm : IsGRU st m M) (hy : Maybe st (a.map GRUState.y) (b.map Recurrent.GRUState.y)) (hx : V st x X) :
    Sim s θ st (gruNext m a x) (Recurrent.gruNext M b X) (fun st a b => D st a.y b.y) := by
  refine Sim.bind (affine_sim hm.res hx hy) fun st₁ ar AR _ h => ?_
  replace hm := hm.mono st₁; replace hx := hx.mono st₁; replace hy := hy.mono st₁
  refine Sim.bind (call1 h.1 fun _ _ => .sigmoid) fun st₂ r R _ hr => ?_
  replace hm := hm.mono st₂; replace hx := hx.mono st₂; replace hy := hy.mono st₂; replace hr := hr.1
  refine Sim.bind (affine_sim hm.part hx hy) fun st₃ ap AP _ h => ?_
  replace hm := hm.mono st₃; replace hx := hx.mono st₃; replace hy := hy.mono st₃; replace hr := hr.mono st₃
  refine Sim.bind (call1 h.1 fun _ _ => .sigmoid) fun st₄ p P _ hp => ?_
  replace hm := hm.mono st₄; replace hx := hx.mono st₄; replace hy := hy.mono st₄; replace hr := hr.mono st₄
  replace hp := hp.1
  refine Sim.bind (tryProd_sim hy hr) fun st₅ ry RY _ hry => ?_
  replace hm := hm.mono st₅; replace hx := hx.mono st₅; replace hy := hy.mono st₅; replace hp := hp.mono st₅
  refine Sim.bind (affine_sim hm.cand hx hry) fun st₆ ac AC _ h => ?_
  replace hy := hy.mono st₆; replace hp := hp.mono st₆
  refine Sim.bind (call1 h.1 fun _ _ => .tanh) fun st₇ c C _ hc => ?_
  replace hy := hy.mono st₇; replace hp := hp.mono st₇
  refine Sim.bind (call2 hp hc.1.v fun _ _ => .prod) fun st₈ y Y _ hyn => ?_
  replace hy := hy.mono st₈; replace hp := hp.mono st₈; replace hyn := hyn.1
  cases a with
  | none =>
    cases b with
    | none => exact Sim.pure hyn
    | some b => exact hy.elim
  | some a =>
    cases b with
    | none => exact hy.elim
    | some b =>
      have hy : D _ a.y b.y := hy
      refine Sim.bindConst fun st₉ o ho => ?_
      replace hy := hy.mono st₉; replace hp := hp.mono st₉; replace hyn := hyn.mono st₉
      refine Sim.bind (call2 hp ho fun _ _ => .reverseSubScalar) fun st₁₀ q Q _ hq => ?_
      replace hy := hy.mono st₁₀; replace hyn := hyn.mono st₁₀
      refine Sim.bind (call2 hq.1 hy.v fun _ _ => .prod) fun st₁₁ z Z _ hz => ?_
      replace hyn := hyn.mono st₁₁
      refine Sim.bind (call2 hyn hz.1.v fun _ _ => .add) fun st₁₂ y' Y' _ hy' => ?_
      exact Sim.pure hy'.1

theorem gru_forward {m : GRU} {M : Recurrent.GRU} {is : List Nat} {xs : List (Dense ℝ)} (hm : IsGRU st m M)
    (hi : Inputs st is xs) :
    Sim s θ st (forward (gruNext m) GRUState.y is) (Recurrent.forward (Recurrent.gruNext M) Recurrent.GRUState.y xs)
      Outputs := by
  refine forward_sim (R := fun st a b => D st a.y b.y) (M := fun st => IsGRU st m M) (fun st st' h => h.mono st')
    (fun st st' a b h => D.mono (i := a.y) (v := b.y) h st') (fun st a b h => h) ?_ hm hi
  intro st a b i x hm hab hx
  refine gru_sim hm ?_ hx
  cases a <;> cases b
  · trivial
  · exact hab.elim
  · exact hab.elim
  · exact hab

/-! ### LSTM -/

structure IsLSTM (st : State) (m : LSTM) (M : Recurrent.LSTM) : Prop where
  refined : m.refined = M.refined
  inp : IsGate st m.inp M.inp
  outp : IsGate st m.outp M.outp
  forg : IsGate st m.forg M.forg
  cand : IsGate st m.cand M.cand

theorem IsLSTM.mono {m : LSTM} {M : Recurrent.LSTM} (h : IsLSTM st m M) (st' : State) : IsLSTM (st ++ st') m M :=
  ⟨h.refined, h.inp.mono st', h.outp.mono st', h.forg.mono st', h.cand.mono st'⟩

theorem ite_sim {α β : Type} {b : Bool} {c c' : B α} {m m' : Option β} {R : State → α → β → Prop}
    (h : b = true → Sim s θ st c m R) (h' : b = false → Sim s θ st c' m' R) :
    Sim s θ st (if b = true then c else c') (if b = true then m else m') R := by
  cases b
  · exact h' rfl
  · exact h rfl

theorem lstm_sim {m : LSTM} {M : Recurrent.LSTM} {a : Option LSTMState} {b : Option Recurrent.LSTMState} {x : Nat}
    {X : Dense ℝ} (hm : IsLSTM st m M) (hy : Maybe st (a.map LSTMState.y) (b.map Recurrent.LSTMState.y))
    (hc : Maybe st (a.map LSTMState.cell) (b.map Recurrent.LSTMState.cell)) (hx : V st x X) :
    Sim s θ st (lstmNext m a x) (Recurrent.lstmNext M b X) (fun st a b => D st a.y b.y ∧ D st a.cell b.cell) := by
  refine Sim.bind (affine_sim hm.inp hx hy) fun st₁ ai AI _ h => ?_
  replace hm := hm.mono st₁; replace hx := hx.mono st₁; replace hy := hy.mono st₁; replace hc := hc.mono st₁
  refine Sim.bind (call1 h.1 fun _ _ => .sigmoid) fun st₂ i I _ hi => ?_
  replace hm := hm.mono st₂; replace hx := hx.mono st₂; replace hy := hy.mono st₂; replace hc := hc.mono st₂
  replace hi := hi.1
  refine Sim.bind (affine_sim hm.outp hx hy) fun st₃ ao AO _ h => ?_
  replace hm := hm.mono st₃; replace hx := hx.mono st₃; replace hy := hy.mono st₃; replace hc := hc.mono st₃
  replace hi := hi.mono st₃
  refine Sim.bind (call1 h.1 fun _ _ => .sigmoid) fun st₄ o O _ ho => ?_
  replace hm := hm.mono st₄; replace hx := hx.mono st₄; replace hy := hy.mono st₄; replace hc := hc.mono st₄
  replace hi := hi.mono st₄; replace ho := ho.1
  refine Sim.bind (affine_sim hm.forg hx hy) fun st₅ af AF _ h => ?_
  replace hm := hm.mono st₅; replace hx := hx.mono st₅; replace hy := hy.mono st₅; replace hc := hc.mono st₅
  replace hi := hi.mono st₅; replace ho := ho.mono st₅
  refine Sim.bind (call1 h.1 fun _ _ => .sigmoid) fun st₆ f F _ hf => ?_
  replace hm := hm.mono st₆; replace hx := hx.mono st₆; replace hy := hy.mono st₆; replace hc := hc.mono st₆
  replace hi := hi.mono st₆; replace ho := ho.mono st₆; replace hf := hf.1
  refine Sim.bind (affine_sim hm.cand hx hy) fun st₇ ac AC _ h => ?_
  replace hm := hm.mono st₇; replace hx := hx.mono st₇; replace hc := hc.mono st₇
  replace hi := hi.mono st₇; replace ho := ho.mono st₇; replace hf := hf.mono st₇
  refine Sim.bind (call1 h.1 fun _ _ => .tanh) fun st₈ d E _ hd => ?_
  replace hm := hm.mono st₈; replace hx := hx.mono st₈; replace hc := hc.mono st₈
  replace hi := hi.mono st₈; replace ho := ho.mono st₈; replace hf := hf.mono st₈; replace hd := hd.1
  refine Sim.bind (R := D) ?_ fun st₉ i' I' _ hi' => ?_
  · rw [hm.refined]
    exact ite_sim (fun _ => (call2 hi hx fun _ _ => .prod).weaken fun _ _ _ _ h => h.1) fun _ => Sim.pure hi
  replace hm := hm.mono st₉; replace hx := hx.mono st₉; replace hc := hc.mono st₉
  replace ho := ho.mono st₉; replace hf := hf.mono st₉; replace hd := hd.mono st₉
  refine Sim.bind (R := D) ?_ fun st₁₀ o' O' _ ho' => ?_
  · rw [hm.refined]
    exact ite_sim (fun _ => (call2 ho hx fun _ _ => .prod).weaken fun _ _ _ _ h => h.1) fun _ => Sim.pure ho
  replace hc := hc.mono st₁₀; replace hf := hf.mono st₁₀; replace hd := hd.mono st₁₀; replace hi' := hi'.mono st₁₀
  refine Sim.bind (call2 hi' hd.v fun _ _ => .prod) fun st₁₁ ic IC _ hic => ?_
  replace hc := hc.mono st₁₁; replace hf := hf.mono st₁₁; replace ho' := ho'.mono st₁₁; replace hic := hic.1
  refine Sim.bind (R := D) ?_ fun st₁₂ ce CE _ hce => ?_
  · cases a with
    | none =>
      cases b with
      | none => exact Sim.pure hic
      | some b => exact hc.elim
    | some a =>
      cases b with
      | none => exact hc.elim
      | some b =>
        have hc : D _ a.cell b.cell := hc
        refine Sim.bind (call2 hf hc.v fun _ _ => .prod) fun st₁₃ fc FC _ hfc => ?_
        exact (call2 (hic.mono st₁₃) hfc.1.v fun _ _ => .add).weaken fun _ _ _ _ h => h.1
  replace ho' := ho'.mono st₁₂
  refine Sim.bind (call1 hce fun _ _ => .tanh) fun st₁₃ t T _ ht => ?_
  replace ho' := ho'.mono st₁₃; replace hce := hce.mono st₁₃
  refine Sim.bind (call2 ho' ht.1.v fun _ _ => .prod) fun st₁₄ y Y _ hyn => ?_
  exact Sim.pure ⟨hyn.1, hce.mono st₁₄⟩

theorem lstm_forward {m : LSTM} {M : Recurrent.LSTM} {is : List Nat} {xs : List (Dense ℝ)} (hm : IsLSTM st m M)
    (hi : Inputs st is xs) :
    Sim s θ st (forward (lstmNext m) LSTMState.y is) (Recurrent.forward (Recurrent.lstmNext M) Recurrent.LSTMState.y xs)
      Outputs := by
  refine forward_sim (R := fun st a b => D st a.y b.y ∧ D st a.cell b.cell) (M := fun st => IsLSTM st m M)
    (fun st st' h => h.mono st') (fun st st' a b h => ⟨D.mono (i := a.y) (v := b.y) h.1 st', D.mono (i := a.cell) (v := b.cell) h.2 st'⟩) (fun st a b h => h.1) ?_ hm hi
  intro st a b i x hm hab hx
  cases a <;> cases b
  · exact lstm_sim hm trivial trivial hx
  · exact hab.elim
  · exact hab.elim
  · exact lstm_sim hm hab.1 hab.2 hx

/-! ### Losses -/

theorem zip_dims {f : ℝ → ℝ → ℝ} {x y z : Dense ℝ} (h : Dense.zipOp f x y = some z) : z.rows = x.rows ∧ z.cols = x.cols ∧
    x.cols = y.cols := by
  unfold Dense.zipOp at h
  split at h
  · rename_i hd
    obtain rfl := Option.some.inj h
    simp only [Dense.sameDims, Bool.and_eq_true, beq_iff_eq] at hd
    exact ⟨rfl, rfl, hd.2⟩
  · cases h

theorem mse_sim {x y : Nat} {X Y : Dense ℝ} {mean : Bool} (hx : D st x X) (hy : V st y Y) (hc : Y.cols = 1) :
    Sim s θ st (mse x y mean) (Losses.mse X Y mean) (New st) := by
  refine Sim.bind (call2 hx hy fun _ _ => .sub) fun st₁ d E hE hd => ?_
  refine Sim.bind (call2 hd.1 hd.1.v fun _ _ => .prod) fun st₂ q Q hQ hq => ?_
  refine Sim.bindConst fun st₃ c hc' => ?_
  refine Sim.bind (call2 (hq.1.mono st₃) hc' fun _ _ => .prodScalar) fun st₄ l L hL hl => ?_
  have hEc : E.cols = 1 := by
    obtain ⟨-, h2, h3⟩ := zip_dims hE
    rw [h2, h3, hc]
  have hQc : Q.cols = 1 := by
    obtain ⟨-, h2, -⟩ := zip_dims hQ
    rw [h2, hEc]
  have hLc : L.cols = 1 := by
    rw [Losses.prodScalar_fwd] at hL
    obtain rfl := Option.some.inj hL
    exact hQc
  have hlen : ∀ i : Nat, (st ++ st₁ ++ st₂ ++ st₃ ++ st₄).length ≤ i → st.length ≤ i := by
    intro i h; simp only [List.length_append] at h; omega
  exact ite_sim (fun _ => (call1 hl.1 fun _ _ => .reduceMean hLc).weaken fun _ _ _ _ h => ⟨h.1, hlen _ h.2⟩)
    fun _ => (call1 hl.1 fun _ _ => .reduceSum hLc).weaken fun _ _ _ _ h => ⟨h.1, hlen _ h.2⟩

theorem seqLoop_sim {n : Nat} {elem : Nat → Nat → B Nat} {elem' : Dense ℝ → Dense ℝ → Option (Dense ℝ)}
    {T : Dense ℝ → Prop}
    (he : ∀ st p P t Q, D st p P → V st t Q → T Q → Sim s θ st (elem p t) (elem' P Q) (New st)) :
    ∀ {ps : List Nat} {Ps : List (Dense ℝ)} {ts : List Nat} {Ts : List (Dense ℝ)} {l : Nat} {L : Dense ℝ} {st : State},
      Outputs st ps Ps → Inputs st ts Ts → (∀ t ∈ Ts, T t) → D st l L → n ≤ l → n ≤ st.length →
      Sim s θ st (seqLoop elem ps ts l) (Losses.seqLoop elem' Ps Ts L) (fun st i v => D st i v ∧ n ≤ i)
  | [], [], ts, Ts, l, L, st, _, _, _, hl, hn, _ => Sim.pure ⟨hl, hn⟩
  | p :: ps, P :: Ps, [], [], l, L, st, _, _, _, _, _, _ => Sim.fail
  | p :: ps, P :: Ps, t :: ts, T' :: Ts, l, L, st, .cons hp hps, .cons ht hts, hT, hl, hn, hn' => by
    refine Sim.bind (he st p P t T' hp ht (hT _ (by simp))) fun st₁ e E _ hE => ?_
    refine Sim.bind (call2 (hl.mono st₁) hE.1.v fun _ _ => .add) fun st₂ l' L' _ hl' => ?_
    refine seqLoop_sim he (Outputs.mono (Outputs.mono hps st₁) st₂) (Inputs.mono (Inputs.mono hts st₁) st₂)
      (fun t ht => hT t (by simp [ht])) hl'.1 ?_ ?_
    · refine le_trans hn' (le_trans ?_ hl'.2); simp
    · refine le_trans hn' ?_; simp

theorem lossSeq_sim {elem : Nat → Nat → B Nat} {elem' : Dense ℝ → Dense ℝ → Option (Dense ℝ)}
    {T : Dense ℝ → Prop}
    (he : ∀ st p P t Q, D st p P → V st t Q → T Q → Sim s θ st (elem p t) (elem' P Q) (New st))
    {ps : List Nat} {Ps : List (Dense ℝ)} {ts : List Nat} {Ts : List (Dense ℝ)} {mean : Bool}
    (hp : Outputs st ps Ps) (ht : Inputs st ts Ts) (hT : ∀ t ∈ Ts, T t) :
    Sim s θ st (lossSeq elem ps ts mean) (Losses.lossSeq elem' Ps Ts mean) (New st) := by
  cases hp with
  | nil => exact Sim.fail
  | cons hp hps =>
    cases ht with
    | nil => exact Sim.fail
    | cons ht hts =>
      rename_i p P ps Ps t T' ts Ts
      refine Sim.bind (he st p P t T' hp ht (hT _ (by simp))) fun st₁ e E _ hE => ?_
      refine Sim.bind (seqLoop_sim (n := st.length) he (Outputs.mono hps st₁) (Inputs.mono hts st₁)
        (fun t ht => hT t (by simp [ht])) hE.1 hE.2 (by simp)) fun st₂ l L _ hl => ?_
      refine ite_sim (fun _ => ?_) fun _ => Sim.pure hl
      have hlen : (p :: ps).length = (P :: Ps).length := by
        rw [List.length_cons, List.length_cons, List.Forall₂.length_eq hps]
      rw [hlen]
      refine Sim.bindConst fun st₃ c hc => ?_
      refine (call2 (hl.1.mono st₃) hc fun _ _ => .divScalar ?_).weaken fun _ _ _ _ h => ⟨h.1, ?_⟩
      · show ((P :: Ps).length : ℝ) ≠ 0
        exact Nat.cast_ne_zero.mpr (by simp)
      · refine le_trans ?_ h.2
        simp only [List.length_append]; omega

end Verif.Record
