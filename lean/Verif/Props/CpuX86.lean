/-
C71: the choice of the vector routines.
-/
import Verif.Spec.CpuX86
import Verif.Props.AsmKernels
set_option autoImplicit false
set_option linter.unusedSimpArgs false

namespace Verif.CpuX86

/-! ### Bits -/

theorem isSet_eq (n : Nat) (v : BitVec 32) (h : n < 32) : isSet n v = v.getLsbD n := by
  unfold isSet
  rw [bne_eq]
  have key : v &&& (1#32 <<< n) = 0#32 ↔ v.getLsbD n = false := by
    constructor
    · intro e
      have := congrArg (fun w => BitVec.getLsbD w n) e
      simpa [BitVec.getLsbD_and, BitVec.getLsbD_shiftLeft, h] using this
    · intro e
      apply BitVec.eq_of_getLsbD_eq
      intro i hi
      rw [BitVec.getLsbD_and, BitVec.getLsbD_shiftLeft]
      by_cases hin : i = n
      · subst hin; simp [e]
      · simp [BitVec.getLsbD_one]; omega
  cases hb : v.getLsbD n
  · simp [key.2 hb]
  · have : ¬ (v &&& (1#32 <<< n) = 0#32) := by rw [key, hb]; simp
    simp [this]

theorem osAVX_eq (r : Regs) :
    osAVX r = (r.ecx1.getLsbD 27 && r.xcr0.getLsbD 1 && r.xcr0.getLsbD 2) := by
  unfold osAVX
  rw [isSet_eq _ _ (by decide), isSet_eq _ _ (by decide), isSet_eq _ _ (by decide)]
  cases r.ecx1.getLsbD 27 <;> simp

theorem archInit_flags (r : Regs) :
    archInit r .avx = (decide (1 ≤ r.maxID) && (isSet 28 r.ecx1 && osAVX r)) ∧
    archInit r .fma = (decide (1 ≤ r.maxID) && isSet 12 r.ecx1) ∧
    archInit r .sse3 = (decide (1 ≤ r.maxID) && isSet 0 r.ecx1) ∧
    archInit r .avx2 = (decide (7 ≤ r.maxID) && (isSet 5 r.ebx7 && osAVX r)) := by
  by_cases h1 : r.maxID < 1
  · have h7 : ¬ (7 ≤ r.maxID) := by bv_omega
    have h1' : ¬ (1 ≤ r.maxID) := by bv_omega
    have e : archInit r = fun _ => false := by unfold archInit; exact if_pos h1
    rw [e, decide_eq_false h7, decide_eq_false h1']
    exact ⟨rfl, rfl, rfl, rfl⟩
  · have h1' : 1 ≤ r.maxID := by bv_omega
    rw [decide_eq_true h1']
    unfold archInit
    rw [if_neg h1]
    by_cases h7 : r.maxID < 7
    · have h7' : ¬ (7 ≤ r.maxID) := by bv_omega
      rw [if_pos h7, decide_eq_false h7']
      exact ⟨rfl, rfl, rfl, rfl⟩
    · have h7' : 7 ≤ r.maxID := by bv_omega
      rw [if_neg h7, decide_eq_true h7']
      split <;> exact ⟨rfl, rfl, rfl, rfl⟩

/-- **C71.** `HasAVX` is set exactly when AVX may be used. -/
theorem detect_avx (r : Regs) : archInit r .avx = true ↔ UseAVX r := by
  rw [(archInit_flags r).1, osAVX_eq, isSet_eq _ _ (by decide)]
  unfold UseAVX
  simp [and_assoc]

/-- **C71.** On a processor where AVX2 implies AVX, `HasAVX2` is set exactly when AVX2 may be
used. -/
theorem detect_avx2 (r : Regs) (hc : Consistent r) : archInit r .avx2 = true ↔ UseAVX2 r := by
  rw [(archInit_flags r).2.2.2, osAVX_eq, isSet_eq _ _ (by decide)]
  unfold UseAVX2 UseAVX
  unfold Consistent at hc
  have h17 : 7 ≤ r.maxID → 1 ≤ r.maxID := by intro h; bv_omega
  simp only [Bool.and_eq_true, decide_eq_true_eq]
  tauto

theorem archInit_avx512 (r : Regs) :
    archInit r .avx512 = (decide (7 ≤ r.maxID) && (isSet 16 r.ebx7 && osAVX512 r)) := by
  by_cases h1 : r.maxID < 1
  · have h7 : ¬ (7 ≤ r.maxID) := by bv_omega
    have e : archInit r = fun _ => false := by unfold archInit; exact if_pos h1
    rw [e, decide_eq_false h7]
    rfl
  · unfold archInit
    rw [if_neg h1]
    by_cases h7 : r.maxID < 7
    · have h7' : ¬ (7 ≤ r.maxID) := by bv_omega
      rw [if_pos h7, decide_eq_false h7']
      rfl
    · have h7' : 7 ≤ r.maxID := by bv_omega
      rw [if_neg h7, decide_eq_true h7']
      split <;> rfl

/-- **C71.** On a processor where AVX-512 implies AVX, `HasAVX512` is set exactly when AVX-512 may be used. -/
theorem detect_avx512 (r : Regs) (hc : 7 ≤ r.maxID → r.ebx7.getLsbD 16 = true → r.ecx1.getLsbD 28 = true) :
    archInit r .avx512 = true ↔ UseAVX512 r := by
  rw [archInit_avx512, isSet_eq _ _ (by decide)]
  unfold osAVX512 UseAVX512 UseAVX
  rw [osAVX_eq, isSet_eq _ _ (by decide), isSet_eq _ _ (by decide), isSet_eq _ _ (by decide), isSet_eq _ _ (by decide)]
  have h17 : 7 ≤ r.maxID → 1 ≤ r.maxID := by intro h; bv_omega
  cases h27 : r.ecx1.getLsbD 27 <;> cases hd : r.darwin <;>
    simp only [Bool.and_eq_true, decide_eq_true_eq, Bool.false_eq_true, if_false, if_true, and_false, false_and,
      Bool.true_and, iff_false, true_and, and_true, reduceCtorEq] <;> tauto

theorem detect_sse3 (r : Regs) : archInit r .sse3 = true ↔ UseSSE3 r := by
  rw [(archInit_flags r).2.2.1, isSet_eq _ _ (by decide)]
  unfold UseSSE3
  simp

/-- **C71.** Together with `HasAVX`, `HasFMA` means that FMA may be used. -/
theorem detect_fma (r : Regs) :
    (archInit r .avx && archInit r .fma) = true ↔ UseFMA r := by
  rw [Bool.and_eq_true, detect_avx, (archInit_flags r).2.1, isSet_eq _ _ (by decide)]
  unfold UseFMA UseAVX
  simp only [Bool.and_eq_true, decide_eq_true_eq]
  tauto

/-- Alone it does not: the operating system is not asked. -/
theorem fma_alone : ∃ r, Consistent r ∧ archInit r .fma = true ∧ ¬ UseFMA r := by
  refine ⟨⟨7, 1#32 <<< 12, 0, 0, 0, 0, 0, 0, false⟩, ?_, ?_, ?_⟩
  · unfold Consistent; decide
  · decide
  · decide

/-! ### GODEBUG -/

theorem indexByte_some {c : Char} {s : List Char} {i : Nat} (h : indexByte c s = some i) :
    i < s.length ∧ c ∉ s.take i ∧ s = s.take i ++ c :: s.drop (i + 1) := by
  induction s generalizing i with
  | nil => simp [indexByte] at h
  | cons a s ih =>
    unfold indexByte at h
    by_cases ha : a = c
    · rw [if_pos ha] at h
      obtain rfl : 0 = i := by simpa using h
      subst ha
      simp
    · rw [if_neg ha] at h
      cases hs : indexByte c s with
      | none => simp [hs] at h
      | some j =>
        rw [hs] at h
        obtain rfl : j + 1 = i := by simpa using h
        obtain ⟨h1, h2, h3⟩ := ih hs
        refine ⟨by simp; omega, ?_, ?_⟩
        · simp only [List.take_succ_cons, List.mem_cons, not_or]
          exact ⟨fun e => ha e.symm, h2⟩
        · simp only [List.take_succ_cons, List.drop_succ_cons, List.cons_append, List.cons.injEq,
            true_and]
          exact h3

theorem indexByte_none {c : Char} {s : List Char} (h : indexByte c s = none) : c ∉ s := by
  induction s with
  | nil => simp
  | cons a s ih =>
    unfold indexByte at h
    by_cases ha : a = c
    · simp [ha] at h
    · rw [if_neg ha] at h
      cases hs : indexByte c s with
      | none =>
        simp only [List.mem_cons, not_or]
        exact ⟨fun e => ha e.symm, ih hs⟩
      | some j => simp [hs] at h

theorem indexByte_append {c : Char} {k v : List Char} (h : c ∉ k) :
    indexByte c (k ++ c :: v) = some k.length := by
  induction k with
  | nil => simp [indexByte]
  | cons a k ih =>
    simp only [List.mem_cons, not_or] at h
    rw [List.cons_append, indexByte, if_neg (fun e => h.1 e.symm), ih h.2]
    simp

/-- What a field asks for: key and value. -/
def parse (field : List Char) : Option (List Char × Bool) :=
  if field.length < 4 then none
  else if field.take 4 ≠ "cpu.".toList then none
  else match indexByte '=' field with
    | none => none
    | some i =>
      if field.drop (i + 1) = "on".toList ∨ field.drop (i + 1) = "off".toList then
        some ((field.take i).drop 4, decide (field.drop (i + 1) = "on".toList))
      else none

/-- What it does to one option. -/
def onOpt (field : List Char) (o : Opt) : Opt :=
  match parse field with
  | none => o
  | some (key, b) =>
    if key = "all".toList then { o with specified := true, enable := b || o.required }
    else if o.name = key then { o with specified := true, enable := b }
    else o

theorem eq_ge_four {field : List Char} {i : Nat} (h4 : ¬ field.length < 4)
    (hh : field.take 4 = "cpu.".toList) (hi : indexByte '=' field = some i) : 4 ≤ i := by
  obtain ⟨h1, -, h3⟩ := indexByte_some hi
  by_contra hlt
  have e : field[i]'h1 = '=' := by
    have h3' := congrArg (fun l => l[i]?) h3
    have hl : (field.take i).length = i := by simp; omega
    simp only [List.getElem?_append_right (Nat.le_of_eq hl), hl] at h3'
    simpa [List.getElem?_eq_getElem h1] using h3'
  have e2 : (field.take 4)[i]? = some '=' := by
    rw [List.getElem?_take, if_pos (by omega), List.getElem?_eq_getElem h1, e]
  rw [hh] at e2
  have : i = 0 ∨ i = 1 ∨ i = 2 ∨ i = 3 := by omega
  rcases this with rfl | rfl | rfl | rfl <;> revert e2 <;> decide

theorem setFirst_eq_map {key : List Char} {b : Bool} {opts : List Opt}
    (hn : (opts.map Opt.name).Nodup) :
    setFirst key b opts =
      opts.map fun o => if o.name = key then { o with specified := true, enable := b } else o := by
  induction opts with
  | nil => rfl
  | cons o os ih =>
    simp only [List.map_cons, List.nodup_cons] at hn
    unfold setFirst
    by_cases h : o.name = key
    · rw [if_pos h]
      simp only [List.map_cons, if_pos h, List.cons.injEq, true_and]
      have : os.map (fun o => if o.name = key then { o with specified := true, enable := b } else o)
          = os.map id := by
        apply List.map_congr_left
        intro p hp
        have : p.name ≠ key := by
          rintro rfl
          exact hn.1 (h ▸ List.mem_map_of_mem hp)
        simp [this]
      rw [this, List.map_id]
    · rw [if_neg h, ih hn.2]
      simp only [List.map_cons, if_neg h]

theorem doField_eq {opts : List Opt} (hn : (opts.map Opt.name).Nodup) (field : List Char) :
    doField opts field = some (opts.map (onOpt field)) := by
  have hid : parse field = none → some opts = some (opts.map (onOpt field)) := by
    intro hp
    have : onOpt field = fun o => o := by funext o; simp [onOpt, hp]
    rw [this, List.map_id']
  unfold doField
  by_cases h4 : field.length < 4
  · have hp : parse field = none := by simp [parse, h4]
    simp only [h4, if_true]
    exact hid hp
  · have hs : slice field 0 4 = some (field.take 4) := by simp [slice]; omega
    simp only [h4, if_false, hs, Option.pure_def, Option.bind_eq_bind, Option.bind_some]
    by_cases hh : field.take 4 = "cpu.".toList
    · rw [if_neg (by simpa using hh)]
      cases hi : indexByte '=' field with
      | none =>
        have hp : parse field = none := by simp [parse, hi]
        exact hid hp
      | some i =>
        have hi4 := eq_ge_four h4 hh hi
        obtain ⟨h1, -, -⟩ := indexByte_some hi
        have hk : slice field 4 i = some ((field.take i).drop 4) := by simp [slice, hi4]; omega
        have hv : slice field (i + 1) field.length = some (field.drop (i + 1)) := by
          simp [slice]; omega
        simp only [hk, hv, Option.bind_some]
        by_cases hon : field.drop (i + 1) = "on".toList ∨ field.drop (i + 1) = "off".toList
        · have hp : parse field = some ((field.take i).drop 4,
              decide (field.drop (i + 1) = "on".toList)) := by
            unfold parse
            rw [if_neg h4, if_neg (by simpa using hh), hi]
            simp only [if_pos hon]
          rw [if_pos hon]
          by_cases ha : (field.take i).drop 4 = "all".toList
          · rw [if_pos ha]
            congr 1
            apply List.map_congr_left
            intro o _
            simp only [onOpt, hp, if_pos ha]
          · rw [if_neg ha, setFirst_eq_map hn]
            congr 1
            apply List.map_congr_left
            intro o _
            simp only [onOpt, hp, if_neg ha]
        · have hp : parse field = none := by
            unfold parse
            rw [if_neg h4, if_neg (by simpa using hh), hi]
            simp only [if_neg hon]
          rw [if_neg hon]
          exact hid hp
    · have hp : parse field = none := by
        unfold parse
        rw [if_neg h4, if_pos hh]
      rw [if_pos hh]
      exact hid hp

theorem onOpt_name (f : List Char) (o : Opt) : (onOpt f o).name = o.name := by
  unfold onOpt; split <;> [rfl; (split <;> [rfl; (split <;> rfl)])]

theorem onOpt_feature (f : List Char) (o : Opt) : (onOpt f o).feature = o.feature := by
  unfold onOpt; split <;> [rfl; (split <;> [rfl; (split <;> rfl)])]

theorem onOpt_required (f : List Char) (o : Opt) : (onOpt f o).required = o.required := by
  unfold onOpt; split <;> [rfl; (split <;> [rfl; (split <;> rfl)])]

/-- All fields of GODEBUG on one option. -/
def onAll (fs : List (List Char)) (o : Opt) : Opt := fs.foldl (fun o f => onOpt f o) o

theorem fields_eq (env : List Char) (opts : List Opt) (hn : (opts.map Opt.name).Nodup) :
    fields opts env = some (opts.map (onAll (env.splitOn ','))) := by
  induction h : env.length using Nat.strong_induction_on generalizing env opts with
  | _ n ih =>
  unfold fields
  by_cases he : env = []
  · subst he
    have : onAll (([] : List Char).splitOn ',') = fun o => o := by
      funext o
      simp [onAll, onOpt, parse]
    rw [if_pos rfl, this]
    simp
  · rw [if_neg he]
    split
    · rename_i hi
      have hno := indexByte_none hi
      have hs : env.splitOn ',' = [env] := by
        unfold List.splitOn
        apply List.splitOnP_eq_singleton
        intro x hx
        exact beq_eq_false_iff_ne.2 fun e => hno (e ▸ hx)
      rw [doField_eq hn, hs]
      rfl
    · rename_i i hi
      obtain ⟨h1, h2, h3⟩ := indexByte_some hi
      have ha : slice env 0 i = some (env.take i) := by simp [slice]; omega
      have hb : slice env (i + 1) env.length = some (env.drop (i + 1)) := by
        simp [slice]; omega
      have hs : env.splitOn ',' = env.take i :: (env.drop (i + 1)).splitOn ',' := by
        conv_lhs => rw [h3]
        unfold List.splitOn
        apply List.splitOnP_first
        · intro x hx
          exact beq_eq_false_iff_ne.2 fun e => h2 (e ▸ hx)
        · simp
      have hl : (env.drop (i + 1)).length < env.length := by simp; omega
      have hn' : ((opts.map (onOpt (env.take i))).map Opt.name).Nodup := by
        rw [List.map_map]
        have : Opt.name ∘ onOpt (env.take i) = Opt.name := by
          funext o; exact onOpt_name _ _
        rw [this]; exact hn
      simp only [ha, hb, doField_eq hn, Option.bind_eq_bind, Option.bind_some]
      rw [if_pos hl, ih _ (h ▸ hl) _ _ hn' rfl, hs]
      congr 1
      rw [List.map_map]
      rfl

/-- The last loop, one option at a time. -/
theorem apply_other {X : Flags} {opts : List Opt} {f : Feat}
    (h : ∀ o ∈ opts, o.feature ≠ f) : apply X opts f = X f := by
  induction opts generalizing X with
  | nil => rfl
  | cons o os ih =>
    have h1 := fun p hp => h p (List.mem_cons_of_mem _ hp)
    have h2 := h o (List.mem_cons_self ..)
    unfold apply
    split
    · exact ih h1
    · split
      · exact ih h1
      · split
        · exact ih h1
        · rw [ih h1]
          simp [Flags.put, Ne.symm h2]

theorem apply_eq {X : Flags} {opts : List Opt} (hn : (opts.map Opt.feature).Nodup) {o : Opt}
    (ho : o ∈ opts) :
    apply X opts o.feature = (X o.feature && !(o.specified && !o.enable && !o.required)) := by
  induction opts generalizing X with
  | nil => cases ho
  | cons p os ih =>
    simp only [List.map_cons, List.nodup_cons] at hn
    rcases List.mem_cons.1 ho with rfl | ho'
    · have hother : ∀ Y : Flags, apply Y os o.feature = Y o.feature := fun Y =>
        apply_other fun q hq e => hn.1 (e ▸ List.mem_map_of_mem hq)
      unfold apply
      rcases o with ⟨nm, ft, sp, en, rq⟩
      simp only at hother ⊢
      cases sp <;> cases en <;> cases rq <;> cases hX : X ft <;>
        simp [hother, hX, Flags.put]
    · have hne : p.feature ≠ o.feature := fun e => hn.1 (e ▸ List.mem_map_of_mem ho')
      unfold apply
      split
      · exact ih hn.2 ho'
      · split
        · exact ih hn.2 ho'
        · split
          · exact ih hn.2 ho'
          · rw [ih hn.2 ho']
            simp [Flags.put, Ne.symm hne]

theorem names_nodup : (initOptions.map Opt.name).Nodup := by decide
theorem features_nodup : (initOptions.map Opt.feature).Nodup := by decide
theorem features_all (f : Feat) : ∃ o ∈ initOptions, o.feature = f := by
  cases f <;> decide

/-- A value of a field. -/
def word (b : Bool) : List Char := if b then "on".toList else "off".toList

theorem parse_iff (field key : List Char) (b : Bool) (hk : '=' ∉ key) :
    parse field = some (key, b) ↔ field = "cpu.".toList ++ key ++ "=".toList ++ word b := by
  constructor
  · intro h
    unfold parse at h
    split at h
    · simp at h
    split at h
    · simp at h
    rename_i h4 hh
    split at h
    · simp at h
    rename_i i hi
    split at h
    · rename_i hv
      simp only [Option.some.injEq, Prod.mk.injEq] at h
      have hh' : field.take 4 = "cpu.".toList := by simpa using hh
      have hi4 := eq_ge_four h4 hh' hi
      obtain ⟨h1, -, h3⟩ := indexByte_some hi
      have ht : field.take i = "cpu.".toList ++ key := by
        have e := List.take_append_drop 4 (field.take i)
        rw [List.take_take, Nat.min_eq_left hi4, hh', h.1] at e
        exact e.symm
      have hw : field.drop (i + 1) = word b := by
        unfold word
        rcases hv with hv | hv
        · have : b = true := by rw [← h.2]; simp [hv]
          simp [this, hv]
        · have : b = false := by rw [← h.2]; simp [hv]
          simp [this, hv]
      conv_lhs => rw [h3, ht, hw]
      simp
    · simp at h
  · rintro rfl
    have hc : '=' ∉ ("cpu.".toList ++ key) := by
      simp only [List.mem_append, not_or]
      exact ⟨by decide, hk⟩
    have hl : ("cpu.".toList ++ key).length = 4 + key.length := by simp; omega
    have hi : indexByte '=' ("cpu.".toList ++ key ++ "=".toList ++ word b) =
        some (4 + key.length) := by
      have := indexByte_append (v := word b) hc
      rw [hl] at this
      rw [← this]
      simp
    have hd : ("cpu.".toList ++ key ++ "=".toList ++ word b).drop (4 + key.length + 1) = word b := by
      have : ("cpu.".toList ++ key ++ "=".toList).length = 4 + key.length + 1 := by
        rw [List.length_append, hl]; rfl
      rw [← this, List.drop_left]
    have ht : ("cpu.".toList ++ key ++ "=".toList ++ word b).take (4 + key.length) =
        "cpu.".toList ++ key := by
      rw [← hl, List.append_assoc ("cpu.".toList ++ key), List.take_left]
    unfold parse
    rw [if_neg, if_neg, hi]
    · simp only [hd, ht]
      rw [if_pos (by cases b <;> simp [word])]
      congr 2
      · cases b <;> decide
    · simp
    · simp

theorem says_iff (f name : List Char) (b : Bool) (hn : '=' ∉ name) :
    Says f name b ↔ ∃ key, parse f = some (key, b) ∧ (key = name ∨ key = "all".toList) := by
  unfold Says
  refine exists_congr fun key => and_congr_left fun h => ?_
  have : '=' ∉ key := by
    rcases h with rfl | rfl
    · exact hn
    · decide
  exact (parse_iff f key b this).symm

/-- Switched off by a list of fields. -/
def OffIn (fs : List (List Char)) (name : List Char) : Prop :=
  ∃ pre f post, fs = pre ++ f :: post ∧ Says f name false ∧ ∀ g ∈ post, ¬ Says g name true

theorem offIn_nil (name : List Char) : ¬ OffIn [] name := by
  rintro ⟨pre, f, post, h, -⟩
  simp at h

theorem offIn_concat (fs : List (List Char)) (f name : List Char) :
    OffIn (fs ++ [f]) name ↔ Says f name false ∨ (¬ Says f name true ∧ OffIn fs name) := by
  constructor
  · rintro ⟨pre, g, post, h, hs, hp⟩
    rcases List.eq_nil_or_concat post with rfl | ⟨post', z, rfl⟩
    · have := List.append_inj' (h : fs ++ [f] = pre ++ [g]) rfl
      simp only [List.cons.injEq, and_true] at this
      rw [this.2]; exact .inl hs
    · rw [List.concat_eq_append] at h hp
      have h' : fs ++ [f] = (pre ++ g :: post') ++ [z] := by rw [h]; simp
      have := List.append_inj' h' rfl
      simp only [List.cons.injEq, and_true] at this
      refine .inr ⟨?_, pre, g, post', this.1, hs, fun q hq => hp q (by simp [hq])⟩
      rw [this.2]
      exact hp z (by simp)
  · rintro (h | ⟨h, pre, g, post, rfl, hs, hp⟩)
    · exact ⟨fs, f, [], rfl, h, by simp⟩
    · refine ⟨pre, g, post ++ [f], by simp, hs, ?_⟩
      intro q hq
      rcases List.mem_append.1 hq with hq | hq
      · exact hp q hq
      · rw [List.mem_singleton.1 hq]; exact h

theorem onAll_concat (fs : List (List Char)) (f : List Char) (o : Opt) :
    onAll (fs ++ [f]) o = onOpt f (onAll fs o) := by
  simp [onAll, List.foldl_append]

theorem onAll_keeps (fs : List (List Char)) (o : Opt) :
    (onAll fs o).name = o.name ∧ (onAll fs o).feature = o.feature ∧
      (onAll fs o).required = o.required := by
  induction fs using List.reverseRecOn with
  | nil => exact ⟨rfl, rfl, rfl⟩
  | append_singleton fs f ih =>
    rw [onAll_concat, onOpt_name, onOpt_feature, onOpt_required]
    exact ih

theorem onAll_off (fs : List (List Char)) (o : Opt) (ho : o.specified = false)
    (hr : o.required = false) (hn : '=' ∉ o.name) :
    ((onAll fs o).specified && !(onAll fs o).enable) = true ↔ OffIn fs o.name := by
  induction fs using List.reverseRecOn with
  | nil => simp [onAll, ho, offIn_nil]
  | append_singleton fs f ih =>
    obtain ⟨k1, -, k3⟩ := onAll_keeps fs o
    rw [onAll_concat, offIn_concat, says_iff _ _ _ hn, says_iff _ _ _ hn, ← ih]
    generalize onAll fs o = p at k1 k3 ⊢
    rw [hr] at k3
    unfold onOpt
    cases hp : parse f with
    | none => simp
    | some kb =>
      obtain ⟨key, b⟩ := kb
      simp only [Option.some.injEq, Prod.mk.injEq]
      by_cases ha : key = "all".toList
      · simp only [if_pos ha, k3]
        cases b <;> simp [ha]
      · simp only [if_neg ha, k1]
        by_cases hkn : o.name = key
        · rw [if_pos hkn]
          cases b <;> simp [hkn]
        · rw [if_neg hkn]
          have h1 : ∀ b', ¬ ∃ key', (key = key' ∧ b = b') ∧ (key' = o.name ∨ key' = "all".toList) := by
            rintro b' ⟨key', ⟨rfl, -⟩, rfl | h⟩
            · exact hkn rfl
            · exact ha h
          simp only [h1, false_or, not_false_eq_true, true_and]

/-- **C71.** The initialisation never panics, whatever GODEBUG contains. -/
theorem init_total (r : Regs) (env : List Char) : ∃ X, init r env = some X := by
  unfold init processOptions
  rw [fields_eq _ _ names_nodup]
  exact ⟨_, rfl⟩

/-- **C71.** A feature is reported exactly when it was detected and GODEBUG does not switch it off;
SSE2 cannot be switched off. -/
theorem options_spec {r : Regs} {env : List Char} {X : Flags} (h : init r env = some X) {o : Opt}
    (ho : o ∈ initOptions) :
    X o.feature = true ↔ archInit r o.feature = true ∧ (o.feature = .sse2 ∨ ¬ Off env o.name) := by
  unfold init processOptions at h
  rw [fields_eq _ _ names_nodup] at h
  simp only [Option.bind_eq_bind, Option.bind_some, Option.pure_def, Option.some.injEq] at h
  subst h
  have hfeat : (fun o : Opt => (onAll (env.splitOn ',') o).feature) = Opt.feature := by
    funext p; exact (onAll_keeps _ p).2.1
  have hnd : ((initOptions.map (onAll (env.splitOn ','))).map Opt.feature).Nodup := by
    rw [List.map_map]
    have : Opt.feature ∘ onAll (env.splitOn ',') = Opt.feature := hfeat
    rw [this]; exact features_nodup
  have := apply_eq (X := archInit r) hnd (List.mem_map_of_mem (f := onAll (env.splitOn ',')) ho)
  rw [(onAll_keeps _ o).2.1, (onAll_keeps _ o).2.2] at this
  rw [this]
  have hall : ∀ p ∈ initOptions, p.specified = false ∧ '=' ∉ p.name ∧
      (p.required = true ↔ p.feature = .sse2) := by decide
  obtain ⟨hs, hn, hr⟩ := hall o ho
  cases hq : o.required with
  | true => simp [hr.1 hq]
  | false =>
    have hne : o.feature ≠ .sse2 := by
      intro e; rw [hr.2 e] at hq; cases hq
    have := onAll_off (env.splitOn ',') o hs hq hn
    simp only [Bool.not_false, Bool.and_true, Bool.and_eq_true, Bool.not_eq_true', hne, false_or]
    rw [← Bool.not_eq_true ((onAll _ _).specified && _), this]
    rfl

/-- **C71.** The three variables that choose the routines. -/
theorem flags_spec {r : Regs} {env : List Char} {X : Flags} (h : init r env = some X) :
    (X .avx = true ↔ UseAVX r ∧ ¬ Off env "avx".toList) ∧
    (Consistent r → (X .avx2 = true ↔ UseAVX2 r ∧ ¬ Off env "avx2".toList)) ∧
    (X .avx = true ∧ X .fma = true ↔
      UseFMA r ∧ ¬ Off env "avx".toList ∧ ¬ Off env "fma".toList) := by
  have hav := options_spec h (o := { name := "avx".toList, feature := .avx }) (by decide)
  have hav2 := options_spec h (o := { name := "avx2".toList, feature := .avx2 }) (by decide)
  have hf := options_spec h (o := { name := "fma".toList, feature := .fma }) (by decide)
  simp only [reduceCtorEq, false_or] at hav hav2 hf
  refine ⟨by rw [hav, detect_avx], fun hc => by rw [hav2, detect_avx2 r hc], ?_⟩
  rw [hav, hf]
  have := detect_fma r
  rw [Bool.and_eq_true] at this
  tauto

/-! ### The routines on the processor -/

/-- **C71.** On a processor with SSE3, whatever GODEBUG says, every function of the package is given
a routine all of whose instructions the processor knows. -/
theorem routines_executable_partial {r : Regs} {env : List Char} {X : Flags}
    (h : init r env = some X) (hc : Consistent r) (h3 : UseSSE3 r) (sz : Asm.Sz) :
    ∀ code ∈ [Asm.addFn (chosen X) sz, Asm.subFn (chosen X) sz, Asm.divFn (chosen X) sz,
      Asm.addConstFn (chosen X) sz, Asm.mulConstFn (chosen X) sz, Asm.dotProdFn (chosen X) sz,
      Asm.sumFn (chosen X) sz], ∀ x ∈ Asm.instrs code, (hardware r).can x = true := by
  obtain ⟨f1, f2, f3⟩ := flags_spec h
  have f2 := f2 hc
  have a1 : (chosen X).avx = true → (hardware r).avx = true := fun e => by
    simpa [hardware] using (f1.1 e).1
  have a2 : (chosen X).avx2 = true → (hardware r).avx2 = true := fun e => by
    simpa [hardware] using (f2.1 e).1
  have a3 : ((chosen X).avx && (chosen X).fma) = true → (hardware r).fma = true := fun e => by
    simpa [hardware] using (f3.1 (Bool.and_eq_true .. ▸ e)).1
  have a4 : (hardware r).avx2 = true → (hardware r).avx = true := fun e => by
    simp only [hardware, decide_eq_true_eq] at e ⊢
    exact e.1
  have a5 : (hardware r).sse3 = true := by simpa [hardware] using h3
  generalize chosen X = C at *
  generalize hardware r = H at *
  obtain ⟨c1, c2, c3, c4⟩ := C
  obtain ⟨h1, h2, h3', h4⟩ := H
  simp only at a1 a2 a3 a4 a5
  subst a5
  intro code hm
  cases c1 <;> cases c2 <;> cases c3 <;> simp only [Bool.and_true, Bool.and_false, Bool.true_and,
      Bool.false_and, forall_const, Bool.false_eq_true, false_implies, true_implies] at a1 a2 a3 a4 <;>
    (try subst a1) <;> (try subst a2) <;> (try subst a3) <;> (try simp only [forall_const] at a4) <;>
    (try subst a4) <;> cases sz <;>
    simp only [List.mem_cons, List.not_mem_nil, or_false] at hm <;>
    rcases hm with rfl | rfl | rfl | rfl | rfl | rfl | rfl <;>
    rw [← List.all_eq_true] <;> rfl

/-- What a routine computes is what it computes on the processor, if the processor knows all its
instructions. -/
theorem runOn_iff {cpu : Asm.Cpu} {R : Type} {E : Asm.Env R} {code : List Asm.Line}
    (h : ∀ x ∈ Asm.instrs code, cpu.can x = true) (s s' : Asm.St R) :
    CallOn cpu E code s s' ↔ Asm.Call E code s s' := by
  have hcons : ∀ (a : Asm.Line) (l : List Asm.Line), ∀ x ∈ Asm.instrs l, x ∈ Asm.instrs (a :: l) := by
    intro a l x hx
    cases a <;> simp [Asm.instrs, hx]
  have hafter : ∀ (lb : Asm.Lbl) (l : List Asm.Line), ∀ x ∈ Asm.instrs (Asm.after lb l),
      x ∈ Asm.instrs l := by
    intro lb l
    induction l with
    | nil => intro x hx; exact hx
    | cons a l ih =>
      intro x hx
      cases a with
      | label k =>
        simp only [Asm.after] at hx
        split at hx
        · exact hcons _ _ _ hx
        · exact hcons _ _ _ (ih x hx)
      | i y => exact hcons _ _ _ (ih x hx)
      | jmp y => exact hcons _ _ _ (ih x hx)
      | jcc y z => exact hcons _ _ _ (ih x hx)
      | ret => exact hcons _ _ _ (ih x hx)
  constructor
  · intro hr
    have gen : ∀ l s s', RunOn cpu E code l s s' → Asm.Run E code l s s' := by
      intro l s s' hr
      induction hr with
      | label _ ih => exact .label ih
      | ins _ he _ ih => exact .ins he ih
      | jmp _ ih => exact .jmp ih
      | taken hc _ ih => exact .taken hc ih
      | falls hc _ ih => exact .falls hc ih
      | ret => exact .ret
    exact gen _ _ _ hr
  · intro hr
    have gen : ∀ l s s', Asm.Run E code l s s' → (∀ x ∈ Asm.instrs l, cpu.can x = true) →
        RunOn cpu E code l s s' := by
      intro l s s' hr
      clear * - hr h hcons hafter
      induction hr with
      | label _ ih => exact fun hl => .label (ih fun x hx => hl x (hcons _ _ _ hx))
      | ins he _ ih =>
        exact fun hl => .ins (hl _ (by simp [Asm.instrs])) he (ih fun x hx => hl x (hcons _ _ _ hx))
      | jmp _ ih => exact fun _ => .jmp (ih fun x hx => h x (hafter _ _ _ hx))
      | taken hc _ ih => exact fun _ => .taken hc (ih fun x hx => h x (hafter _ _ _ hx))
      | falls hc _ ih => exact fun hl => .falls hc (ih fun x hx => hl x (hcons _ _ _ hx))
      | ret => exact fun _ => .ret
    exact gen _ _ _ hr h

/-- Does the way from here to the next `RET` lead through an instruction the processor does not
know? -/
def blocked (cpu : Asm.Cpu) : List Asm.Line → Bool
  | [] => true
  | .ret :: _ => false
  | .i x :: rest => !cpu.can x || blocked cpu rest
  | _ :: rest => blocked cpu rest

theorem blocked_no_run {cpu : Asm.Cpu} {R : Type} {E : Asm.Env R} {code : List Asm.Line}
    (hl : ∀ l, blocked cpu (Asm.after l code) = true) {rest : List Asm.Line} {s s' : Asm.St R}
    (h : RunOn cpu E code rest s s') : blocked cpu rest = false := by
  induction h with
  | label _ ih => exact ih
  | ins hc _ _ ih => simp [blocked, hc, ih]
  | jmp _ ih => rw [hl] at ih; cases ih
  | taken _ _ ih => rw [hl] at ih; cases ih
  | falls _ _ ih => exact ih
  | ret => rfl

/-- **C71 (negated for processors without SSE3).** There no sum and no dot product ever returns,
whatever the arguments: each ends at HADDPS or HADDPD with an invalid-opcode exception. -/
theorem reductions_never_return {r : Regs} {env : List Char} {X : Flags}
    (h : init r env = some X) (h3 : ¬ UseSSE3 r) (hav : UseAVX r → UseSSE3 r) (sz : Asm.Sz)
    {R : Type} (E : Asm.Env R) (s s' : Asm.St R) :
    ¬ CallOn (hardware r) E (Asm.sumFn (chosen X) sz) s s' ∧
    ¬ CallOn (hardware r) E (Asm.dotProdFn (chosen X) sz) s s' := by
  have ha : ¬ UseAVX r := fun e => h3 (hav e)
  have hX : X .avx = false := by
    rw [← Bool.not_eq_true, (flags_spec h).1]
    exact fun e => ha e.1
  have hH : hardware r = ⟨false, false, false, false⟩ := by
    simp [hardware, UseAVX2, UseFMA, ha, h3]
  have key : ∀ code : List Asm.Line,
      (∀ l, blocked ⟨false, false, false, false⟩ (Asm.after l code) = true) →
      blocked ⟨false, false, false, false⟩ code = true →
      ¬ CallOn ⟨false, false, false, false⟩ E code s s' := by
    intro code h1 h2 hr
    have := blocked_no_run h1 hr
    rw [h2] at this; cases this
  rw [hH]
  constructor
  · have : Asm.sumFn (chosen X) sz = Asm.sumFn ⟨false, false, false, false⟩ sz := by
      cases sz <;> simp [Asm.sumFn, chosen, hX]
    rw [this]
    apply key
    · intro l; cases sz <;> cases l <;> rfl
    · cases sz <;> rfl
  · have : Asm.dotProdFn (chosen X) sz = Asm.dotProdFn ⟨false, false, false, false⟩ sz := by
      cases sz <;> simp [Asm.dotProdFn, chosen, hX]
    rw [this]
    apply key
    · intro l; cases sz <;> cases l <;> rfl
    · cases sz <;> rfl

/-- **C71.** The elementwise functions are given routines that every amd64 processor knows. -/
theorem elementwise_executable {r : Regs} {env : List Char} {X : Flags}
    (h : init r env = some X) (hc : Consistent r) (sz : Asm.Sz) :
    ∀ code ∈ [Asm.addFn (chosen X) sz, Asm.subFn (chosen X) sz, Asm.divFn (chosen X) sz,
      Asm.addConstFn (chosen X) sz, Asm.mulConstFn (chosen X) sz],
      ∀ x ∈ Asm.instrs code, (hardware r).can x = true := by
  obtain ⟨f1, f2, -⟩ := flags_spec h
  have f2 := f2 hc
  have a1 : (chosen X).avx = true → (hardware r).avx = true := fun e => by
    simpa [hardware] using (f1.1 e).1
  have a2 : (chosen X).avx2 = true → (hardware r).avx2 = true := fun e => by
    simpa [hardware] using (f2.1 e).1
  have a4 : (hardware r).avx2 = true → (hardware r).avx = true := fun e => by
    simp only [hardware, decide_eq_true_eq] at e ⊢
    exact e.1
  generalize chosen X = C at *
  generalize hardware r = H at *
  obtain ⟨c1, c2, c3, c4⟩ := C
  obtain ⟨h1, h2, h3', h4⟩ := H
  simp only at a1 a2 a4
  intro code hm
  cases c1 <;> cases c2 <;> simp only [forall_const, Bool.false_eq_true, false_implies,
      true_implies] at a1 a2 a4 <;>
    (try subst a1) <;> (try subst a2) <;> (try simp only [forall_const] at a4) <;>
    (try subst a4) <;> cases sz <;>
    simp only [List.mem_cons, List.not_mem_nil, or_false] at hm <;>
    rcases hm with rfl | rfl | rfl | rfl | rfl <;>
    rw [← List.all_eq_true] <;> rfl

/-- **C71.** The vector exponential and logarithm run their AVX routines, made of AVX and AVX2
instructions, only where both may be used (exp_amd64.go:15, log_amd64.go:17). -/
theorem expLog_executable {r : Regs} {env : List Char} {X : Flags}
    (h : init r env = some X) (hc : Consistent r) (h2 : (chosen X).avx2 = true) :
    UseAVX r ∧ UseAVX2 r :=
  have := (((flags_spec h).2.1 hc).1 h2).1
  ⟨this.1, this⟩

/-- **C71.** `Add32`/`Add64` from the start of the program to the result: on every amd64 processor
and for every GODEBUG, a call returns with the sums. -/
theorem add_on_processor {r : Regs} (hc : Consistent r) (env : List Char) (sz : Asm.Sz) {R : Type}
    (alu : Asm.Alu R) {x1 x2 y : Asm.Sl}
    (h2 : x1.len ≤ x2.len) (hy : x1.len ≤ y.len) (hal : x2.base % sz.bytes = 0)
    (ov1 : x1.base = y.base ∨ Spec.Kernels.Apart sz.bytes x1.len x1.base y.base)
    (ov2 : x2.base = y.base ∨ Spec.Kernels.Apart sz.bytes x1.len x2.base y.base) (s : Asm.St R) :
    ∃ X, init r env = some X ∧ ∃ s',
      (∀ t, CallOn (hardware r) (Asm.frame3 sz.bytes alu x1 x2 y) (Asm.addFn (chosen X) sz) s t ↔
        t = s') ∧
      Spec.Kernels.elems sz.bytes s'.mem y.base x1.len =
        List.zipWith (alu.op .add) (Spec.Kernels.elems sz.bytes s.mem x1.base x1.len)
          (Spec.Kernels.elems sz.bytes s.mem x2.base x1.len) := by
  obtain ⟨X, hX⟩ := init_total r env
  obtain ⟨s', h1, h3, -⟩ := Asm.add_kernel (chosen X) sz alu h2 hy hal ov1 ov2 s
  refine ⟨X, hX, s', fun t => ?_, h3⟩
  rw [runOn_iff (elementwise_executable hX hc sz _ (by simp)), h1]

/-- **C71.** `DotProd32`/`DotProd64` from the start of the program to the result, on every amd64
processor with SSE3.  Without SSE3 there is no result (`reductions_never_return`). -/
theorem dotProd_on_processor_partial {r : Regs} (hc : Consistent r) (h3 : UseSSE3 r)
    (env : List Char) (sz : Asm.Sz) {R : Type} [CommSemiring R] (alu : Asm.Alu R)
    (hex : Asm.Exact alu) {x1 x2 : Asm.Sl} (h2 : x1.len ≤ x2.len) (hal : x2.base % sz.bytes = 0)
    (s : Asm.St R) :
    ∃ X, init r env = some X ∧ ∃ s',
      (∀ t, CallOn (hardware r) (Asm.frame2 sz.bytes alu x1 x2) (Asm.dotProdFn (chosen X) sz) s t ↔
        t = s') ∧
      s'.out = some (List.zipWith (· * ·) (Spec.Kernels.elems sz.bytes s.mem x1.base x1.len)
        (Spec.Kernels.elems sz.bytes s.mem x2.base x1.len)).sum := by
  obtain ⟨X, hX⟩ := init_total r env
  obtain ⟨s', h1, h4, -⟩ := Asm.dotProd_kernel (chosen X) sz alu hex h2 hal s
  refine ⟨X, hX, s', fun t => ?_, h4⟩
  rw [runOn_iff (routines_executable_partial hX hc h3 sz _ (by simp)), h1]

/-! ### Concrete cases -/

/-- A processor with SSE3, AVX, AVX2 and FMA under an operating system that saves YMM registers. -/
def modern : Regs :=
  ⟨13, 1#32 <<< 27 ||| 1#32 <<< 28 ||| 1#32 <<< 12 ||| 1#32, 1#32 <<< 26, 1#32 <<< 5, 0, 0, 0, 7,
    false⟩

/-- A processor of 2004: SSE2 and nothing more. -/
def old : Regs := ⟨1, 0, 1#32 <<< 26, 0, 0, 0, 0, 0, false⟩

theorem modern_consistent : Consistent modern := by unfold Consistent; decide
theorem old_consistent : Consistent old := by unfold Consistent; decide

example : UseAVX modern ∧ UseAVX2 modern ∧ UseFMA modern ∧ UseSSE3 modern := by decide

example : archInit modern .avx = true := (detect_avx _).2 (by decide)
example : archInit modern .avx2 = true := (detect_avx2 _ modern_consistent).2 (by decide)
example : archInit { modern with xcr0 := 3 } .avx = false := by decide
example : archInit { modern with xcr0 := 0xe7, ebx7 := modern.ebx7 ||| 1#32 <<< 16 } .avx512 = true :=
  (detect_avx512 _ (by decide)).2 (by unfold UseAVX512; decide)

theorem off_example : Off "gctrace=1,cpu.all=on,cpu.avx=off,cpu.sse9=on".toList "avx".toList :=
  ⟨["gctrace=1".toList, "cpu.all=on".toList], "cpu.avx=off".toList, ["cpu.sse9=on".toList],
    by decide, ⟨"avx".toList, by decide, .inl rfl⟩, by
      intro g hg
      rw [List.mem_singleton.1 hg, says_iff _ _ _ (by decide)]
      rintro ⟨key, h1, h2⟩
      have : parse "cpu.sse9=on".toList = some ("sse9".toList, true) := by decide
      rw [this] at h1
      obtain rfl : "sse9".toList = key := by simpa using h1
      revert h2; decide⟩

/-- With that setting AVX is switched off. -/
example {X : Flags} (h : init modern "gctrace=1,cpu.all=on,cpu.avx=off,cpu.sse9=on".toList = some X) :
    X .avx = false := by
  rw [← Bool.not_eq_true, (flags_spec h).1]
  exact fun e => e.2 off_example

/-- The dot product of three elements on the modern processor. -/
example : ∃ X, init modern [] = some X ∧ ∃ s',
    (∀ t, CallOn (hardware modern) (Asm.frame2 4 Asm.intAlu ⟨4, 3⟩ ⟨16, 3⟩)
      (Asm.dotProdFn (chosen X) .f32) Asm.demo t ↔ t = s') ∧
    s'.out = some (16 * 256 + 64 * 400 + 144 * 576) := by
  obtain ⟨X, hX, s', h1, h2⟩ := dotProd_on_processor_partial modern_consistent (by decide) [] .f32
    Asm.intAlu Asm.intAlu_exact (x1 := ⟨4, 3⟩) (x2 := ⟨16, 3⟩) (by decide) (by decide) Asm.demo
  exact ⟨X, hX, s', h1, by rw [h2]; decide⟩

/-- And on the old one, where it never returns. -/
example {X : Flags} (h : init old [] = some X) {t : Asm.St Int} :
    ¬ CallOn (hardware old) (Asm.frame2 4 Asm.intAlu ⟨4, 3⟩ ⟨16, 3⟩)
      (Asm.dotProdFn (chosen X) .f32) Asm.demo t :=
  (reductions_never_return h (by decide) (fun e => absurd e (by decide)) .f32 _ _ _).2

end Verif.CpuX86
