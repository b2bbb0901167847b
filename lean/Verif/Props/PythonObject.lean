import Verif.PythonObjectSpec
import Verif.Props.Python
import Verif.Props.Bytes
import Verif.Props.Bits
/-
C52, C53: Python buffers, `bytes()` and the unary methods.
-/
set_option linter.unusedSectionVars false
namespace BigIntegerCpp
open Samples
variable [Cfg]

/-! ### C52 buffers -/

/-- What the constructor computes on any buffer: the value of the `size` bytes that follow in
memory, in order. -/
theorem C52_consecutive_bytes (b : PyBuffer) (hf : b.format = "B") (hn : b.ndim = 1) (hb : BytesOk b.memory)
    (hl : b.size < 2 ^ 31) (hm : b.start + b.size ≤ b.memory.length) (hs : Cfg.strictShift = false) :
    Returns (ofBuffer b) (bytesValue false false ((b.memory.drop b.start).take b.size)) := by
  unfold ofBuffer slice
  rw [if_neg (by rw [hf, hn]; simp), if_pos hm, Res.ok_bind]
  refine C25_of_bytes _ (fun w hw => hb w (List.mem_of_mem_drop (List.mem_of_mem_take hw))) ?_ false false hs
  exact lt_of_le_of_lt (List.length_take_le _ _) hl

private theorem elements_eq (b : PyBuffer) (h1 : b.stride = 1 ∨ b.size ≤ 1) (hm : b.start + b.size ≤ b.memory.length) :
    b.elements = (b.memory.drop b.start).take b.size := by
  apply List.ext_getElem
  · simp [PyBuffer.elements]; omega
  · intro i h2 h3
    simp only [PyBuffer.elements, List.length_map, List.length_range] at h2
    have e : (b.start + (i : Int) * b.stride).toNat = b.start + i := by
      rcases h1 with h1 | h1
      · rw [h1]; omega
      · obtain rfl : i = 0 := by omega
        simp
    simp only [PyBuffer.elements, List.getElem_map, List.getElem_range, List.getElem_take, List.getElem_drop, e]
    rw [List.getD_eq_getElem _ _ (by omega)]

/-- C52, partial: the full statement has no condition on the stride. -/
theorem C52_buffer_partial (b : PyBuffer) (hb : b.Ok) (hl : b.size < 2 ^ 31) (h1 : b.stride = 1 ∨ b.size ≤ 1)
    (hs : Cfg.strictShift = false) : Returns (ofBuffer b) (bytesValue false false b.elements) := by
  have hm : b.start + b.size ≤ b.memory.length := by
    have h2 := hb.start
    by_cases h0 : b.size = 0
    · omega
    have h3 := (hb.inside (b.size - 1) (by omega)).2
    rcases h1 with h1 | h1
    · rw [h1] at h3; omega
    · rw [show b.size - 1 = 0 by omega] at h3; simp at h3; omega
  rw [elements_eq b h1 hm]
  exact C52_consecutive_bytes b hb.format hb.ndim hb.bytes hl hm hs

/-- A `bytes` or `bytearray` object, or a contiguous `memoryview` of one. -/
theorem C52_bytes_object (v : List Nat) (hv : BytesOk v) (hl : v.length < 2 ^ 31) (hs : Cfg.strictShift = false) :
    Returns (ofBuffer (bytesBuffer v)) (bytesValue false false v) := by
  have := C52_consecutive_bytes (bytesBuffer v) rfl rfl (fun w hw => by
    rcases List.mem_append.1 hw with h | h
    · exact hv w h
    · rw [List.mem_singleton.1 h]; decide) hl (by simp [bytesBuffer]) hs
  simpa [bytesBuffer] using this

/-- A buffer of other elements or of more dimensions raises an exception. -/
theorem C52_other_format (b : PyBuffer) (h : b.format ≠ "B" ∨ b.ndim ≠ 1) : ofBuffer b = .throw .runtimeError := by
  unfold ofBuffer; rw [if_pos h]

/-- `BigInteger(bytes(a)) == a`. -/
theorem C52_bytes_round_trip (a : BigInt) (x : Int) (ha : a.Denotes x) (hl : a.bits.length < 2 ^ 29)
    (hs : Cfg.strictShift = false) :
    ∃ v, pyBytes a = .ok v ∧ BytesOk v ∧ bytesValue false false v = x ∧ ofBuffer (bytesBuffer v) = .ok a := by
  obtain ⟨v, h1, h2, h3⟩ := C26_signed_bytes_round_trip a x ha hl false hs
  obtain ⟨v', h1', ⟨h4, -⟩, -⟩ := C28_minimal_bytes a x ha hl false false (by simp)
  rw [h1] at h1'
  obtain rfl := Res.ok.inj h1'
  refine ⟨v, h1, h4, h2, ?_⟩
  unfold ofBuffer slice bytesBuffer
  rw [if_neg (by simp), if_pos (by simp), Res.ok_bind]
  simpa using h3

/-- `int.from_bytes(a.to_array(u, be), 'big' or 'little', signed = not u) == int(a)`, unless `u` and
`a` is negative, which raises an exception. -/
theorem C52_to_array (a : BigInt) (x : Int) (ha : a.Denotes x) (hl : a.bits.length < 2 ^ 29) (isUnsigned isBigEndian : Bool) :
    (isUnsigned = true ∧ x < 0 ∧ pyToArray a isUnsigned isBigEndian = .throw .runtimeError) ∨
    ∃ v, pyToArray a isUnsigned isBigEndian = .ok v ∧ BytesOk v ∧ bytesValue isUnsigned isBigEndian v = x := by
  by_cases h : isUnsigned = true ∧ x < 0
  · obtain ⟨rfl, h⟩ := h
    exact .inl ⟨rfl, h, (C27_unsigned_negative_throws a x ha isBigEndian h).1⟩
  · obtain ⟨v, h1, ⟨h2, -⟩, h3, -⟩ := C28_minimal_bytes a x ha hl isUnsigned isBigEndian
      (fun hu => by by_contra hc; exact h ⟨hu, by omega⟩)
    exact .inr ⟨v, h1, h2, h3⟩

/-- `BigInteger(memoryview(v)[::-1])` for three bytes or more reads past the end of `v`. -/
theorem C52_reversed (v : List Nat) (h : 3 ≤ v.length) :
    ofBuffer { memory := v ++ [0], start := v.length - 1, size := v.length, stride := -1 } = .ub .outOfBounds := by
  unfold ofBuffer slice
  rw [if_neg (by simp), if_neg (by simp; omega)]
  rfl

/-- C52 as stated is false: `BigInteger(memoryview(bytes([1, 2, 3, 4]))[::2])` is `0x0201`, not
`0x0301`. -/
theorem C52_refuted : ∃ b : PyBuffer, b.Ok ∧ b.elements = [1, 3] ∧ ofBuffer b = .ok ⟨513, []⟩ ∧
    bytesValue false false b.elements = 769 := by
  refine ⟨{ memory := [1, 2, 3, 4, 0], start := 0, size := 2, stride := 2 }, ⟨by decide, by decide, ?_, rfl, rfl⟩, by decide, ?_, by decide⟩
  · intro i hi
    have : i < 2 := hi
    constructor
    · show (0 : Int) ≤ ((0 : Nat) : Int) + (i : Int) * 2; omega
    · show ((0 : Nat) : Int) + (i : Int) * 2 < 5; omega
  · rename_i c
    obtain ⟨d, s⟩ := c
    cases d <;> cases s <;> decide +kernel

section
example (hs : Cfg.strictShift = false) : Returns (ofBuffer (bytesBuffer [0x85, 0xff, 7, 0xff, 0xf0])) (-64440762491) :=
  C52_bytes_object [0x85, 0xff, 7, 0xff, 0xf0] (by decide) (by decide) hs
/-- A contiguous part of a larger block. -/
example (hs : Cfg.strictShift = false) :
    Returns (ofBuffer { memory := [9, 9, 0x85, 0xff, 9], start := 2, size := 2, stride := 1 }) (-123) :=
  C52_buffer_partial { memory := [9, 9, 0x85, 0xff, 9], start := 2, size := 2, stride := 1 }
    ⟨by decide, by decide, fun i hi => by
      have : i < 2 := hi
      exact ⟨by show (0 : Int) ≤ ((2 : Nat) : Int) + (i : Int) * 1; omega,
        by show ((2 : Nat) : Int) + (i : Int) * 1 < 5; omega⟩, rfl, rfl⟩ (by decide) (.inl rfl) hs
example : ofBuffer { memory := [1, 2, 3, 0], start := 2, size := 3, stride := -1 } = .ub .outOfBounds :=
  C52_reversed [1, 2, 3] (by decide)
example (hs : Cfg.strictShift = false) :
    ∃ v, pyBytes neg3 = .ok v ∧ BytesOk v ∧ bytesValue false false v = -18446744103774322693 ∧ ofBuffer (bytesBuffer v) = .ok neg3 :=
  C52_bytes_round_trip _ _ neg3_denotes (by decide) hs
end

/-! ### C53 unary methods -/

/-- `-a`, `+a`, `abs(a)`, `~a`, `copy.deepcopy(a)`. -/
theorem C53_unary (op : PyUn) (a : BigInt) (x : Int) (ha : a.Denotes x) (fa : a.Fits) : Returns (op.method a) (op.meaning x) := by
  cases op
  · exact C07_negate a x ha
  · exact C07_plus a x ha
  · exact C07_abs a x ha fa
  · obtain ⟨z, h1, h2, -⟩ := C24_not a x ha fa
    have e : Int.not x = -x - 1 := by cases x <;> (simp [Int.not]; try omega)
    show Returns a.compl (Int.not x)
    rw [e, ← h2]; exact h1
  · exact ⟨a, rfl, ha⟩

/-- `BigInteger.zero()`, `one()`, `minus_one()`. -/
theorem C53_constants (c : PyConst) : c.method.Denotes c.meaning := by
  cases c
  · exact denotes_zero
  · exact denotes_one
  · exact BigInt.denotes_small (by decide) (by decide)

/-- `int(a)`, `operator.index(a)`; `float(a)` is `float(int(a))`. -/
theorem C53_int (a : BigInt) (x : Int) (ha : a.Denotes x) (hl : a.bits.length < 2 ^ 29) : pyIntMethod a = .ok x :=
  C44_to_int a x ha hl

/-- `str(a) == str(int(a))`, except where C30 fails. -/
theorem C53_str_partial (a : BigInt) (x : Int) (ha : a.Denotes x) (hl : a.bits.length ≤ 2147483647 / 10)
    (hm : ¬ TextMisfires x) : pyStr a = .ok (toString x).toList := C30_to_string_partial a x ha hl hm

example : Returns (PyUn.invert.method neg3) 18446744103774322692 := C53_unary .invert _ _ neg3_denotes neg3_fits
example : pyStr neg3 = .ok "-18446744103774322693".toList := by
  rw [C53_str_partial neg3 _ neg3_denotes (by decide) (by decide +kernel)]; rfl

/-! ### instances of the remaining theorems -/

example : ofBuffer { memory := [1, 2], start := 0, size := 2, stride := 1, format := "b" } = .throw .runtimeError :=
  C52_other_format _ (.inl (by decide))
example : pyIntMethod neg3 = .ok (-18446744103774322693) := C53_int _ _ neg3_denotes (by decide)

end BigIntegerCpp
