import Verif.Model.Marshal
import Mathlib.Tactic.Ring
import Mathlib.Tactic.NormNum

/-!
# C42: reading back a serialised matrix
-/

set_option autoImplicit false
set_option linter.unusedSimpArgs false

namespace Verif.Marshal

theorem toBytes_length (k n : Nat) : (toBytes k n).length = k := by
  induction k generalizing n with
  | zero => rfl
  | succ k ih => simp [toBytes, ih]

theorem ofBytes_toBytes (k n : Nat) : ofBytes (toBytes k n) = n % 256 ^ k := by
  induction k generalizing n with
  | zero => simp [toBytes, ofBytes, Nat.mod_one]
  | succ k ih =>
    rw [toBytes, ofBytes, ih, Nat.pow_succ', Nat.mod_mul]

theorem ofBytes_toBytes_bv {k : Nat} (v : BitVec (8 * k)) : BitVec.ofNat (8 * k) (ofBytes (toBytes k v.toNat)) = v := by
  rw [ofBytes_toBytes, show 256 ^ k = 2 ^ (8 * k) by rw [Nat.pow_mul], Nat.mod_eq_of_lt v.isLt]
  simp

/-- The bytes of a list of elements, `k` bytes each. -/
theorem chunk {α : Type} (k : Nat) (f : α → List Byte) (hf : ∀ a, (f a).length = k) (l : List α) (i : Nat)
    (hi : i < l.length) : (((l.foldr (fun a acc => f a ++ acc) []).drop (i * k)).take k) = f l[i] := by
  induction l generalizing i with
  | nil => simp at hi
  | cons a l ih =>
    rw [List.foldr_cons]
    cases i with
    | zero =>
      rw [Nat.zero_mul, List.drop_zero]
      exact List.take_left' (hf a)
    | succ i =>
      have hi' : i < l.length := by simpa using hi
      rw [show (i + 1) * k = k + i * k by ring, ← List.drop_drop, List.drop_left' (hf a), ih i hi']
      rfl

theorem chunks_length {α : Type} (k : Nat) (f : α → List Byte) (hf : ∀ a, (f a).length = k) (l : List α) :
    (l.foldr (fun a acc => f a ++ acc) []).length = l.length * k := by
  induction l with
  | nil => simp
  | cons a l ih =>
    rw [List.foldr_cons, List.length_append, hf, ih, List.length_cons]
    ring

variable (τ : DType) (d d0 : Mat τ.size)

theorem marshal_field10 : (marshal τ d).field 10 = some (.vector d.data.length (dataBytes d.data)) := by
  simp [marshal, Table.field]

theorem marshal_field8 : (marshal τ d).field 8 = some (.vector d.shape.length (shapeBytes d.shape)) := by
  simp [marshal, Table.field, List.lookup]

theorem marshal_requiresGrad : requiresGrad (marshal τ d) = d.requiresGrad := by
  obtain ⟨sh, da, rg, g⟩ := d
  cases τ <;> cases rg <;> rfl

theorem marshal_dtype : dtype (marshal τ d) = τ.code := by
  obtain ⟨sh, da, rg, g⟩ := d
  cases τ <;> cases rg <;> rfl

theorem size_pos : 0 < τ.size := by cases τ <;> decide

theorem data_read (e : Endian) : bytesToSlice τ.size e (rawBytes τ.size (marshal τ d)) (dataLength (marshal τ d))
    = d.data.map fun v => BitVec.ofNat (8 * τ.size) (load e (toBytes τ.size v.toNat)) := by
  have hl : (dataBytes d.data).length = d.data.length * τ.size :=
    chunks_length τ.size (fun v : BitVec (8 * τ.size) => toBytes τ.size v.toNat) (fun _ => toBytes_length _ _) _
  unfold rawBytes dataLength
  rw [marshal_field10]
  simp only
  rw [List.take_of_length_le (by omega)]
  unfold bytesToSlice
  split
  · rename_i h0
    rw [hl] at h0
    have := size_pos τ
    rcases Nat.mul_eq_zero.1 h0 with h | h
    · rw [List.length_eq_zero_iff.1 h]; rfl
    · omega
  · apply List.ext_getElem (by simp)
    intro i h1 h2
    have hi : i < d.data.length := by simpa using h1
    rw [List.getElem_map, List.getElem_map, List.getElem_range]
    exact congrArg (fun b => BitVec.ofNat (8 * τ.size) (load e b))
      (chunk τ.size (fun v : BitVec (8 * τ.size) => toBytes τ.size v.toNat) (fun _ => toBytes_length _ _) d.data i hi)

theorem shape_read : ((List.range (shapeLength (marshal τ d))).map fun i => (shapeAt (marshal τ d) i).toInt)
    = d.shape.map fun n => n.bmod (2 ^ 32) := by
  unfold shapeLength shapeAt
  rw [marshal_field8]
  apply List.ext_getElem (by simp)
  intro i h1 h2
  have hi : i < d.shape.length := by simpa using h1
  rw [List.getElem_map, List.getElem_map, List.getElem_range]
  have hc := chunk 4 (fun n : Int => toBytes 4 (BitVec.ofInt 32 n).toNat) (fun _ => toBytes_length _ _) d.shape i hi
  have hb := ofBytes_toBytes_bv (k := 4) (BitVec.ofInt 32 d.shape[i])
  simp only
  unfold shapeBytes
  rw [hc]
  exact (congrArg BitVec.toInt hb).trans (BitVec.toInt_ofInt ..)

/-- **C42.** What is read back on any machine: the dimensions as 32-bit numbers, the elements with their bytes in the
machine's order, the flag; the gradient the receiving matrix had stays. -/
theorem unmarshal_marshal (e : Endian) :
    unmarshal τ e d0 (marshal τ d)
      = some ⟨d.shape.map fun n => n.bmod (2 ^ 32),
          d.data.map fun v => BitVec.ofNat (8 * τ.size) (load e (toBytes τ.size v.toNat)), d.requiresGrad, d0.grad⟩ := by
  unfold unmarshal
  rw [if_neg (by rw [marshal_dtype]; simp)]
  simp only [marshal_requiresGrad, data_read, shape_read]

/-- **C42.** On a little-endian machine, into a fresh matrix, and for dimensions below 2^31: the same shape, elements and
flag, and no gradient. Partial: the claim also covers matrices which have a gradient (`stale_gradient`) and big-endian
machines (`big_endian_wrong`), where it is false. -/
theorem roundTrip_partial (hs : ∀ n ∈ d.shape, 0 ≤ n ∧ n < 2 ^ 31) (h0 : d0.grad = none) :
    unmarshal τ .little d0 (marshal τ d) = some ⟨d.shape, d.data, d.requiresGrad, none⟩ := by
  rw [unmarshal_marshal, h0]
  have e1 : (d.shape.map fun n => n.bmod (2 ^ 32)) = d.shape := by
    conv_rhs => rw [← List.map_id d.shape]
    apply List.map_congr_left
    intro n hn
    obtain ⟨ha, hb⟩ := hs n hn
    rw [Int.bmod_def]
    simp only [id]
    norm_num at hb ⊢
    omega
  have e2 : (d.data.map fun v => BitVec.ofNat (8 * τ.size) (load .little (toBytes τ.size v.toNat))) = d.data := by
    conv_rhs => rw [← List.map_id d.data]
    apply List.map_congr_left
    intro v _
    exact ofBytes_toBytes_bv v
  rw [e1, e2]

/-- **C42.** Bytes written for one type of elements are refused by the other. -/
theorem wrong_dtype (σ : DType) (h : σ ≠ τ) (e : Endian) (d1 : Mat σ.size) : unmarshal σ e d1 (marshal τ d) = none := by
  unfold unmarshal
  rw [if_pos]
  rw [marshal_dtype]
  cases σ <;> cases τ <;> simp_all [DType.code]

/-- A dimension of 2^31 or more (up to 2^32) is read back negative. -/
theorem large_dimension (e : Endian) (n : Int) (hn : n ∈ d.shape) (h1 : 2 ^ 31 ≤ n) (h2 : n < 2 ^ 32) :
    ∃ d', unmarshal τ e d0 (marshal τ d) = some d' ∧ d'.shape ≠ d.shape ∧ ∃ m ∈ d'.shape, m < 0 := by
  have hneg : n.bmod (2 ^ 32) < 0 := by
    rw [Int.bmod_def]
    norm_num at h1 h2 ⊢
    omega
  refine ⟨_, unmarshal_marshal τ d d0 e, ?_, n.bmod (2 ^ 32), List.mem_map_of_mem hn, hneg⟩
  intro heq
  have : ∀ m ∈ d.shape, m.bmod (2 ^ 32) = m := by
    have h3 : (d.shape.map fun n => n.bmod (2 ^ 32)) = d.shape.map id := by simpa using heq
    exact List.map_inj_left.1 h3
  have := this n hn
  norm_num at h1
  omega

/-- The gradient of the receiving matrix outlives the reading, so a used matrix does not end without gradient. -/
theorem stale_gradient (e : Endian) (g : List (BitVec (8 * τ.size))) (h : d0.grad = some g) :
    ∃ d', unmarshal τ e d0 (marshal τ d) = some d' ∧ d'.grad = some g :=
  ⟨_, unmarshal_marshal τ d d0 e, h⟩

/-- On a big-endian machine the elements come back with their bytes reversed: 1.0 becomes another number. -/
theorem big_endian_wrong (d1 : Mat DType.float64.size) :
    ∃ d', unmarshal .float64 .big d1 (marshal .float64 ⟨[1, 1], [0x3FF0000000000000#64], false, none⟩) = some d' ∧
      d'.data = [0x000000000000F03F#64] := by
  refine ⟨_, unmarshal_marshal .float64 _ d1 .big, ?_⟩
  have : ([0x3FF0000000000000#64].map fun v => BitVec.ofNat (8 * 8) (load .big (toBytes 8 v.toNat)))
      = [0x000000000000F03F#64] := by decide +kernel
  exact this

/-- Nothing relates the shape read to the number of elements read: some buffers give a matrix which is not one. -/
theorem unchecked_shape (e : Endian) (h0 : Mat τ.size) (r c : Nat) (hr : r < 2 ^ 31) (hc : c < 2 ^ 31) :
    ∃ t d', unmarshal τ e h0 t = some d' ∧ d'.shape = [(r : Int), (c : Int)] ∧ d'.data = [] := by
  have hs : ∀ n : Nat, n < 2 ^ 31 → (n : Int).bmod (2 ^ 32) = n := by
    intro n hn
    rw [Int.bmod_def]
    norm_num at hn ⊢
    omega
  refine ⟨marshal τ ⟨[(r : Int), (c : Int)], [], false, none⟩, _, unmarshal_marshal τ _ h0 e, ?_, rfl⟩
  simp only [List.map_cons, List.map_nil, hs r hr, hs c hc]

/-- A 1×2 matrix of `float32`: 1 and -2. -/
example : unmarshal .float32 .little ⟨[], [], false, none⟩
    (marshal .float32 ⟨[1, 2], [0x3F800000#32, 0xC0000000#32], true, none⟩)
      = some ⟨[1, 2], [0x3F800000#32, 0xC0000000#32], true, none⟩ :=
  roundTrip_partial .float32 ⟨[1, 2], [0x3F800000#32, 0xC0000000#32], true, none⟩ _ (by simp) rfl

/-- Its bytes. -/
example : dataBytes (k := 4) [0x3F800000#32, 0xC0000000#32] = [0, 0, 0x80, 0x3F, 0, 0, 0, 0xC0] := by decide +kernel

end Verif.Marshal
