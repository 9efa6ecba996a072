/-
C63: saving and loading.
-/
import Verif.Model.Gob
set_option autoImplicit false
set_option linter.unusedSimpArgs false

namespace Verif.Gob

variable {α : Type}

/-- The codec is self-delimiting: it reads back what it wrote whatever follows, wants more bytes as
long as some are missing, and writes at least one byte. -/
structure Codec.Good (C : Codec α) : Prop where
  whole : ∀ x bs rest, C.encode x = some bs → C.decode (bs ++ rest) = .done x bs.length
  part : ∀ x bs k, C.encode x = some bs → k < bs.length → C.decode (bs.take k) = .more
  ne : ∀ x, C.encode x ≠ some []

theorem decodeLoop_some (C : Codec α) (G : C.Good) (x : α) (bs : List Byte) (hx : C.encode x = some bs)
    (fuel : Nat) : ∀ (buf rest tail : List Byte), buf ++ rest = bs ++ tail → rest.length < fuel →
    (decodeLoop C fuel buf rest).1 = .ok x := by
  induction fuel with
  | zero => intro _ _ _ _ h; omega
  | succ fuel ih =>
    intro buf rest tail h hf
    by_cases hb : bs.length ≤ buf.length
    · have hp : ∃ t, buf = bs ++ t := by
        refine ⟨buf.drop bs.length, ?_⟩
        have h1 : (buf ++ rest).take bs.length = bs := by rw [h]; simp
        rw [List.take_append_of_le_length hb] at h1
        calc buf = buf.take bs.length ++ buf.drop bs.length := (List.take_append_drop _ _).symm
          _ = _ := by rw [h1]
      obtain ⟨t, rfl⟩ := hp
      unfold decodeLoop
      rw [G.whole x bs t hx]
    · have hp : buf = bs.take buf.length := by
        have h1 : (buf ++ rest).take buf.length = buf := by simp
        rw [h, List.take_append_of_le_length (by omega)] at h1
        exact h1.symm
      have hm : C.decode buf = .more := by
        rw [hp]; exact G.part x bs _ hx (by omega)
      have hr : rest ≠ [] := by
        rintro rfl
        have := congrArg List.length h
        simp at this
        omega
      unfold decodeLoop
      rw [hm]
      simp only
      rw [if_neg hr]
      refine ih _ _ tail ?_ ?_
      · rw [List.append_assoc, List.take_append_drop]; exact h
      · have : 0 < rest.length := List.length_pos_iff.mpr hr
        simp only [List.length_drop, bufSize]
        omega

/-- `Load` returns the object dumped at the front of the stream, whatever follows it. -/
theorem load_dump (C : Codec α) (G : C.Good) (x : α) (w w' : Writer) (tail : List Byte)
    (h : dump C x w = (none, w')) :
    ∃ bs, w'.got = w.got ++ bs ∧ (load C (bs ++ tail)).1 = .ok x := by
  unfold dump at h
  cases hx : C.encode x with
  | none => rw [hx] at h; simp at h
  | some bs =>
    rw [hx] at h
    simp only [Writer.write] at h
    by_cases hl : bs.length ≤ w.room
    · rw [if_pos hl] at h
      simp only [Prod.mk.injEq, true_and] at h
      refine ⟨bs, by rw [← h], ?_⟩
      exact decodeLoop_some C G x bs hx _ _ _ tail (by simp) (by omega)
    · rw [if_neg hl] at h
      simp at h

/-- `DumpToFile` returns no error exactly when the file was created, the object encoded and every
byte accepted; the failure of `Close` plays no part. -/
theorem dumpToFile_nil_iff (C : Codec α) (d : Disk) (x : α) :
    (dumpToFile C d x).1 = none ↔
      d.createFails = false ∧ ∃ bs, C.encode x = some bs ∧ bs.length ≤ d.room := by
  unfold dumpToFile Disk.create
  cases hc : d.createFails
  · simp only [Bool.false_eq_true, if_false, ne_eq, not_true_eq_false, true_and]
    unfold dump
    cases hx : C.encode x with
    | none => simp [returning]
    | some bs =>
      by_cases hl : bs.length ≤ d.room
      · simp [Writer.write, returning, hl]
      · simp [Writer.write, returning, hl]
  · simp

/-- Errors of creation, encoding and writing are reported, each as itself. -/
theorem dumpToFile_reports_partial (C : Codec α) (d : Disk) (x : α) :
    (d.createFails = true → dumpToFile C d x = (some .create, none)) ∧
    (d.createFails = false → C.encode x = none → (dumpToFile C d x).1 = some .encode) ∧
    (∀ bs, d.createFails = false → C.encode x = some bs → d.room < bs.length →
      dumpToFile C d x = (some .write, some (bs.take d.room))) := by
  refine ⟨fun h => ?_, fun h hx => ?_, fun bs h hx hl => ?_⟩
  · simp [dumpToFile, Disk.create, h]
  · simp [dumpToFile, Disk.create, h, dump, hx, returning]
  · simp [dumpToFile, Disk.create, h, dump, hx, returning, Writer.write, Nat.not_le.mpr hl]

/-- **A failing `Close` is never reported**: no error of `DumpToFile` is that of `Close`, and the
result is the same as if it had succeeded. -/
theorem dumpToFile_close_lost (C : Codec α) (d : Disk) (x : α) :
    (dumpToFile C { d with closeFails := true } x) = dumpToFile C { d with closeFails := false } x ∧
    (dumpToFile C { d with closeFails := true } x).1 ≠ some .close := by
  unfold dumpToFile Disk.create
  cases hc : d.createFails
  · unfold dump
    cases hx : C.encode x with
    | none => simp [returning]
    | some bs =>
      by_cases hl : bs.length ≤ d.room
      · simp [Writer.write, returning, hl]
      · simp [Writer.write, returning, hl]
  · simp

/-- The same for `LoadFromFile`. -/
theorem loadFromFile_close_lost (C : Codec α) (d : Disk) (file : List Byte) :
    loadFromFile C { d with closeFails := true } file =
      loadFromFile C { d with closeFails := false } file := by
  unfold loadFromFile Disk.opn
  cases d.openFails <;> simp [returning]

/-- What `DumpToFile` saved without error, `LoadFromFile` reads back. -/
theorem file_roundtrip (C : Codec α) (G : C.Good) (d d' : Disk) (x : α) (file : List Byte)
    (h : dumpToFile C d x = (none, some file)) (ho : d'.openFails = false) :
    loadFromFile C d' file = .ok x := by
  have hn : (dumpToFile C d x).1 = none := by rw [h]
  obtain ⟨hc, bs, hx, hl⟩ := (dumpToFile_nil_iff C d x).mp hn
  have hf : file = bs := by
    simp [dumpToFile, Disk.create, hc, dump, hx, Writer.write, hl, returning] at h
    exact h.symm
  subst hf
  unfold loadFromFile Disk.opn
  rw [ho]
  simp only [Bool.false_eq_true, if_false, returning]
  exact decodeLoop_some C G x file hx _ _ _ [] (by simp) (by omega)

/-- A file cut short is reported and not taken for an object. -/
theorem load_truncated (C : Codec α) (G : C.Good) (x : α) (bs : List Byte) (k : Nat)
    (hx : C.encode x = some bs) (hk : k < bs.length) :
    (load C (bs.take k)).1 = .error .eof := by
  have aux : ∀ fuel (buf rest : List Byte), buf ++ rest = bs.take k →
      (decodeLoop C fuel buf rest).1 = .error .eof := by
    intro fuel
    induction fuel with
    | zero => intro _ _ _; rfl
    | succ fuel ih =>
      intro buf rest h
      have hlen := congrArg List.length h
      simp only [List.length_append, List.length_take] at hlen
      have hp : buf = bs.take buf.length := by
        have h1 : (buf ++ rest).take buf.length = buf := by simp
        rw [h, List.take_take, Nat.min_eq_left (by omega)] at h1
        exact h1.symm
      have hm : C.decode buf = .more := by rw [hp]; exact G.part x bs _ hx (by omega)
      unfold decodeLoop
      rw [hm]
      simp only
      by_cases hr : rest = []
      · rw [if_pos hr]
      · rw [if_neg hr]
        exact ih _ _ (by rw [List.append_assoc, List.take_append_drop]; exact h)
  exact aux _ _ _ (by simp)

/-- **Two objects dumped to one stream cannot be loaded from it one after the other** if both fit
into the buffer of the first `Load`: the first comes out, the second is lost with the buffer. -/
theorem second_load_lost (C : Codec α) (G : C.Good) (x : α) (bx bY : List Byte)
    (hx : C.encode x = some bx) (hl : bx.length + bY.length ≤ bufSize) :
    load C (bx ++ bY) = (.ok x, []) ∧ (load C (load C (bx ++ bY)).2).1 = .error .eof := by
  have hpos : 0 < bx.length := by
    refine List.length_pos_iff.mpr ?_
    rintro rfl
    exact G.ne x hx
  have hm : C.decode [] = .more := by simpa using G.part x bx 0 hx hpos
  have hne : bx ++ bY ≠ [] := by
    intro h
    rw [List.append_eq_nil_iff] at h
    rw [h.1] at hpos
    simp at hpos
  have h1 : load C (bx ++ bY) = (.ok x, []) := by
    obtain ⟨n, hn⟩ : ∃ n, (bx ++ bY).length = n + 1 := ⟨(bx ++ bY).length - 1, by
      have : 0 < (bx ++ bY).length := List.length_pos_iff.mpr hne
      omega⟩
    unfold load
    rw [hn]
    unfold decodeLoop
    rw [hm]
    simp only
    rw [if_neg hne]
    have ht : (bx ++ bY).take bufSize = bx ++ bY := List.take_of_length_le (by simp; omega)
    have hd : (bx ++ bY).drop bufSize = [] := List.drop_of_length_le (by simp; omega)
    rw [ht, hd]
    unfold decodeLoop
    rw [List.nil_append, G.whole x bx bY hx]
  refine ⟨h1, ?_⟩
  rw [h1]
  simp only [load, decodeLoop, hm]
  rfl

/-- A codec: a length byte and that many bytes. -/
def toyCodec : Codec (List Byte) where
  encode := fun x => if x.length < 256 then some (UInt8.ofNat x.length :: x) else none
  decode := fun bs => match bs with
    | [] => .more
    | n :: t => if n.toNat ≤ t.length then .done (t.take n.toNat) (n.toNat + 1) else .more

theorem toy_good : toyCodec.Good where
  whole := by
    intro x bs rest h
    simp only [toyCodec] at h
    split at h
    · rename_i hl
      simp only [Option.some.injEq] at h
      subst h
      have : (UInt8.ofNat x.length).toNat = x.length := by
        simp [UInt8.toNat_ofNat']; omega
      simp [toyCodec, this, -UInt8.toNat_ofNat']
    · simp at h
  part := by
    intro x bs k h hk
    simp only [toyCodec] at h
    split at h
    · rename_i hl
      simp only [Option.some.injEq] at h
      subst h
      have : (UInt8.ofNat x.length).toNat = x.length := by
        simp [UInt8.toNat_ofNat']; omega
      cases k with
      | zero => rfl
      | succ k =>
        simp only [List.length_cons] at hk
        simp only [toyCodec, List.take_succ_cons, this, List.length_take]
        rw [if_neg (by omega)]
    · simp at h
  ne := by
    intro x
    simp only [toyCodec]
    split <;> simp

example : (dumpToFile toyCodec ⟨false, false, true, 10⟩ [1, 2, 3]).1 = none := by decide
example : toyCodec.encode [1, 2] = some [2, 1, 2] := by decide

end Verif.Gob
