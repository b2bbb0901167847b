import Verif.Lemmas.LoopsText
import Verif.Lemmas.LoopsBytes
import Verif.Props.Bits
import Verif.Props.Bytes
import Verif.Props.Text
/-
C68: element accesses stay inside their arrays.  `Loop.f` is the function `f` with the loops of the
code, index by index; an access outside an array is the outcome `.ub .outOfBounds`.  The first
theorems say that no such access happens, whatever the object (also for objects that no operation
produces, and for sizes at which other things fail); the last ones that `Loop.f` and the model `f`
of the other properties are the same function, so that all other theorems hold of the loops.
-/
set_option linter.unusedSectionVars false
namespace BigIntegerCpp
open Samples
variable [Cfg]

/-! ### helper: outcomes without an access outside an array -/

namespace Loop

/-- `r` is not an access outside an array. -/
def Inside {α : Type} (r : Res α) : Prop := r ≠ .ub .outOfBounds

section
variable {α β : Type}
theorem inside_ok {a : α} : Inside (Res.ok a) := nofun
theorem Inside.bind {r : Res α} {f : α → Res β} (h : Inside r) (hf : ∀ a, r = .ok a → Inside (f a)) : Inside (r >>= f) := by
  cases r with
  | ok a => exact hf a rfl
  | throw => exact nofun
  | abort => exact nofun
  | ub u => intro e; apply h; injection e with e; rw [e]
  | diverge => exact nofun
theorem Inside.ite {c : Prop} [Decidable c] {r s : Res α} (h1 : c → Inside r) (h2 : ¬ c → Inside s) :
    Inside (if c then r else s) := by
  by_cases h : c
  · rw [if_pos h]; exact h1 h
  · rw [if_neg h]; exact h2 h
theorem inside_int {z : Int} : Inside (int z) := Inside.ite (fun _ => nofun) fun _ => nofun
theorem inside_long {z : Int} : Inside (long z) := Inside.ite (fun _ => nofun) fun _ => nofun
theorem inside_size {n : Nat} : Inside (sizeInt n) := Inside.ite (fun _ => nofun) fun _ => nofun
theorem inside_cassert {c : Prop} [Decidable c] : Inside (cassert c) :=
  Inside.ite (fun _ => nofun) fun _ => Inside.ite (fun _ => nofun) fun _ => nofun
theorem inside_idx {a : List α} {i : Nat} (h : i < a.length) : Inside (idx a i) := by rw [idx_eq h]; exact nofun
theorem inside_returns {r : Res BigInt} {x : Int} (h : Returns r x) : Inside r := by
  obtain ⟨b, h, -⟩ := h; rw [h]; exact nofun
theorem inside_eq_ok {r : Res α} {a : α} (h : r = .ok a) : Inside r := by rw [h]; exact nofun
end

theorem inside_valid (a : BigInt) : Inside (assertValid a) := by
  unfold assertValid
  exact .ite (fun _ => .bind inside_cassert fun _ _ => .bind inside_cassert fun _ _ => inside_cassert) fun _ => inside_cassert
theorem inside_checked (a : BigInt) : Inside (checked a) := .bind (inside_valid a) fun _ _ => inside_ok
theorem inside_ofMagnitude (v : List Nat) (n : Bool) : Inside (BigIntegerCpp.ofMagnitude v n) := by
  unfold BigIntegerCpp.ofMagnitude
  exact .bind inside_size fun _ _ => inside_checked _
theorem inside_ofTwos (v : List Nat) : Inside (BigIntegerCpp.ofTwos v) := by
  unfold BigIntegerCpp.ofTwos
  refine .bind inside_size fun _ _ => ?_
  dsimp only
  repeat' first
    | exact inside_checked _
    | refine .ite (fun _ => ?_) fun _ => ?_
theorem inside_parts (a : BigInt) : Inside a.partsForBits := by
  unfold BigInt.partsForBits
  exact .ite (fun _ => .ite (fun _ => .bind inside_int fun _ _ => inside_ok) fun _ => inside_ok) fun _ => inside_ok
theorem inside_shlPos (a : BigInt) (n : Nat) : Inside (a.shlPos n) := by
  unfold BigInt.shlPos
  exact .bind (inside_parts a) fun _ _ => .bind inside_size fun _ _ => .bind inside_int fun _ _ => inside_ofMagnitude _ _
theorem inside_shrPos (a : BigInt) (n : Nat) : Inside (a.shrPos n) := by
  unfold BigInt.shrPos
  refine .bind (inside_parts a) fun _ _ => .bind inside_size fun _ _ => .bind ?_ fun _ _ => ?_
  · exact .ite (fun _ => inside_int) fun _ => inside_ok
  · exact .ite (fun _ => inside_ok) fun _ => inside_ofMagnitude _ _
theorem msbIndex_lt (hd : Nat) {ws : List Nat} (h : ws ≠ []) : BigInt.msbIndex hd ws < ws.length := by
  induction ws with
  | nil => exact absurd rfl h
  | cons w ws ih =>
    rw [BigInt.msbIndex, List.length_cons]
    by_cases hall : ws.all (· = hd) = true
    · rw [if_pos hall]; omega
    · rw [if_neg hall]
      have := ih (by rintro rfl; exact hall rfl)
      omega
theorem inside_words (a : BigInt) : Inside a.toUInt32Array := by
  unfold BigInt.toUInt32Array
  refine .ite (fun _ => inside_ok) fun _ => ?_
  have key : ∀ p : List Nat × Nat, p.1 ≠ [] → Inside (do
      let _ ← sizeInt p.1.length
      let msb := BigInt.msbIndex p.2 p.1
      let w ← idx p.1 msb
      let needExtraByte := decide (w &&& 0x80000000 ≠ p.2 &&& 0x80000000)
      .ok (p.1.take (msb + 1) ++ (if needExtraByte then [p.2] else []))) := fun p hp =>
    .bind inside_size fun _ _ => .bind (inside_idx (msbIndex_lt _ hp)) fun _ _ => inside_ok
  refine key (if a.bits.length = 0 then ([u32i a.sign], if a.sign < 0 then 4294967295 else 0)
    else if a.sign = -1 then (twosComplement a.bits, 4294967295) else (a.bits, 0)) ?_
  by_cases h0 : a.bits.length = 0
  · rw [if_pos h0]; simp
  · have hne : a.bits ≠ [] := fun e => h0 (by simp [e])
    rw [if_neg h0]
    by_cases h1 : a.sign = -1
    · rw [if_pos h1]
      intro h
      apply hne
      rw [← List.length_eq_zero_iff, ← twosComplement_length, show twosComplement a.bits = [] from h]; rfl
    · rw [if_neg h1]; exact hne
theorem inside_bitwise (f : Nat → Nat → Nat) (a b : BigInt) : Inside (BigInt.bitwise f a b) := by
  unfold BigInt.bitwise
  exact .bind (inside_words a) fun _ _ => .bind (inside_words b) fun _ _ => inside_ofTwos _
theorem inside_ofInt32 (v : Int) : Inside (ofInt32 v) := .ite (fun _ => inside_checked _) fun _ => inside_checked _
theorem inside_isZero (a : BigInt) : Inside a.isZero := .bind (inside_valid a) fun _ _ => inside_ok
theorem diffLength_le (xs ys : List Nat) : BigInt.diffLength xs ys ≤ xs.length ∧ BigInt.diffLength xs ys ≤ ys.length := by
  induction xs generalizing ys with
  | nil => simp [BigInt.diffLength]
  | cons x xs ih =>
    cases ys with
    | nil => simp [BigInt.diffLength]
    | cons y ys =>
      have := ih ys
      simp only [BigInt.diffLength, List.length_cons]
      split_ifs <;> omega

end Loop
open Loop

/-! ### C68 -/

/-- The constructors from words. -/
theorem C68_of_words (ws : List Nat) (negative : Bool) :
    Loop.ofMagnitude ws negative ≠ .ub .outOfBounds ∧ Loop.ofTwos ws ≠ .ub .outOfBounds := by
  rw [Loop.ofMagnitude_eq, Loop.ofTwos_eq]
  exact ⟨inside_ofMagnitude _ _, inside_ofTwos _⟩

/-- `<<` and `>>` by any number of bits. -/
theorem C68_shifts (a : BigInt) (n : Int) :
    Loop.shl a n ≠ .ub .outOfBounds ∧ Loop.shr a n ≠ .ub .outOfBounds := by
  rw [Loop.shl_eq, Loop.shr_eq]
  constructor
  · exact Inside.ite (fun _ => inside_ok) fun _ => Inside.ite (fun _ => Inside.bind (inside_shrPos _ _) fun _ _ => inside_shrPos _ _)
      fun _ => Inside.ite (fun _ => inside_shrPos _ _) fun _ => inside_shlPos _ _
  · exact Inside.ite (fun _ => inside_ok) fun _ => Inside.ite (fun _ => Inside.bind (inside_shlPos _ _) fun _ _ => inside_shlPos _ _)
      fun _ => Inside.ite (fun _ => inside_shlPos _ _) fun _ => inside_shrPos _ _

/-- `&`, `|`, `^` and the two's-complement words. -/
theorem C68_bitwise (a b : BigInt) :
    Loop.and a b ≠ .ub .outOfBounds ∧ Loop.or a b ≠ .ub .outOfBounds ∧ Loop.xor a b ≠ .ub .outOfBounds ∧
      Loop.toUInt32Array a ≠ .ub .outOfBounds := by
  rw [Loop.and_eq, Loop.or_eq, Loop.xor_eq, Loop.toUInt32Array_eq]
  refine ⟨?_, ?_, ?_, inside_words a⟩
  · exact Inside.bind (inside_isZero a) fun _ _ => Inside.bind (Inside.ite (fun _ => inside_ok) fun _ => inside_isZero b) fun _ _ =>
      Inside.ite (fun _ => inside_ok) fun _ => Inside.ite (fun _ => inside_ofInt32 _) fun _ => inside_bitwise _ _ _
  · exact Inside.bind (inside_isZero a) fun _ _ => Inside.ite (fun _ => inside_ok) fun _ => Inside.bind (inside_isZero b) fun _ _ =>
      Inside.ite (fun _ => inside_ok) fun _ => Inside.ite (fun _ => inside_ofInt32 _) fun _ => inside_bitwise _ _ _
  · exact Inside.ite (fun _ => inside_ofInt32 _) fun _ => inside_bitwise _ _ _

/-- Comparison, equality, the test for a power of two and the hash code. -/
theorem C68_queries (a b : BigInt) :
    Loop.compareTo a b ≠ .ub .outOfBounds ∧ Loop.equals a b ≠ .ub .outOfBounds ∧ Loop.isPowerOfTwo a ≠ .ub .outOfBounds ∧
      ∃ h, Loop.hashCode a = .ok h := by
  rw [Loop.compareTo_eq, Loop.equals_eq, Loop.isPowerOfTwo_eq]
  refine ⟨?_, ?_, ?_, _, Loop.hashCode_eq a⟩
  · refine Inside.bind (inside_valid a) fun _ _ => Inside.bind (inside_valid b) fun _ _ => Inside.ite (fun _ => inside_ok) fun _ =>
      Inside.ite (fun _ => Inside.ite (fun _ => inside_ok) fun _ => inside_int) fun _ => Inside.bind inside_size fun _ _ =>
      Inside.bind inside_size fun _ _ => Inside.ite (fun _ => inside_ok) fun _ => Inside.ite (fun _ => inside_int) fun _ =>
      Inside.ite (fun _ => inside_ok) fun h => ?_
    have hd := diffLength_le a.bits b.bits
    exact Inside.bind (inside_idx (by omega)) fun _ _ => Inside.bind (inside_idx (by omega)) fun _ _ =>
      Inside.ite (fun _ => inside_int) fun _ => inside_ok
  · exact Inside.bind (inside_valid a) fun _ _ => Inside.bind (inside_valid b) fun _ _ => Inside.ite (fun _ => inside_ok) fun _ =>
      Inside.ite (fun _ => inside_ok) fun _ => Inside.ite (fun _ => inside_ok) fun _ => Inside.ite (fun _ => inside_ok) fun _ => inside_ok
  · exact Inside.bind (inside_valid a) fun _ _ => Inside.ite (fun _ => Inside.bind inside_int fun _ _ => inside_ok) fun _ =>
      Inside.ite (fun _ => inside_ok) fun _ => Inside.ite (fun _ => inside_ok) fun _ => inside_ok

/-- `get_bit_length`, with its table of 32 entries. -/
theorem C68_bit_length (a : BigInt) (x : Int) (ha : a.Denotes x) (fa : a.Fits) : ∃ n, Loop.bitLength a = .ok n := by
  obtain ⟨n, h, -⟩ := C37_bit_length a x ha fa
  exact ⟨n, by rw [Loop.bitLength_eq, h]⟩

/-- The constructor from bytes, for every byte array. -/
theorem C68_of_bytes (v : List Nat) (hb : BytesOk v) (isUnsigned isBigEndian : Bool) :
    Loop.ofBytes v isUnsigned isBigEndian ≠ .ub .outOfBounds := by
  rw [Loop.ofBytes_eq]
  by_cases hl : v.length < 2147483648
  · have := ofBytes_spec v hl hb isUnsigned isBigEndian
    by_cases h : Cfg.strictShift = true ∧ bytesValue isUnsigned isBigEndian v < 0 ∧ v.length ≤ 4
    · rw [if_pos h] at this; rw [this]; exact nofun
    · rw [if_neg h] at this; exact inside_returns this
  · unfold BigIntegerCpp.ofBytes sizeInt
    rw [if_neg hl]; exact nofun

/-- `to_byte_array` in all its modes: every byte of the array it allocates is written inside it. -/
theorem C68_to_bytes (a : BigInt) (x : Int) (ha : a.Denotes x) (hl : a.bits.length < 2 ^ 29) (mode : GetBytesMode)
    (isUnsigned isBigEndian hasPtr : Bool) :
    Loop.toBytesMode a mode isUnsigned isBigEndian hasPtr ≠ .ub .outOfBounds := by
  rw [Loop.toBytesMode_eq]
  by_cases h0 : x = 0
  · have hs := ha.sign_zero.2 h0
    unfold BigInt.toBytesMode
    rw [if_pos hs]
    exact Inside.ite (fun _ => inside_ok) fun _ => nofun
  by_cases hu : isUnsigned = true ∧ x < 0
  · have h1 := ha.sign_neg.2 hu.2
    unfold BigInt.toBytesMode
    rw [if_neg (by omega), if_pos ⟨hu.1, h1⟩]
    exact nofun
  obtain ⟨r, -, -, -, -, -, -, h⟩ := BigInt.toBytesMode_spec ha h0 isUnsigned (fun h => by
    by_contra hc; exact hu ⟨h, by omega⟩) hl
  rw [h]
  exact Inside.ite (fun _ => Inside.ite (fun _ => inside_ok) fun _ => nofun) fun _ => inside_ok

/-- `parse`. -/
theorem C68_parse (s : List Char) (hs : s.length < 2 ^ 34) : Returns (Loop.parse s) (textValue s) := by
  rw [Loop.parse_eq]; exact C31_parse s hs

/-- `to_string` writes outside its buffer exactly on the values of `TextMisfires` (negative, of a
multiple of nine digits, beyond the `int` range), where the minus sign has no place. -/
theorem C68_to_string_exact_iff (a : BigInt) (x : Int) (ha : a.Denotes x) (fa : a.Fits) :
    Loop.toStr a = .ub .outOfBounds ↔ TextMisfires x ∧ a.bits.length ≤ 2147483647 / 10 := by
  rw [Loop.toStr_eq]
  by_cases hl : a.bits.length ≤ 2147483647 / 10
  · by_cases hm : TextMisfires x
    · exact ⟨fun _ => ⟨hm, hl⟩, fun _ => C30_misfire a x ha hl hm⟩
    · rw [C30_to_string_partial a x ha hl hm]
      exact ⟨nofun, fun h => absurd h.1 hm⟩
  · rw [C30_too_long a fa (by omega)]
    exact ⟨nofun, fun h => absurd h.2 hl⟩

/-- Missing from the full claim: the values of `TextMisfires`. -/
theorem C68_to_string_partial (a : BigInt) (x : Int) (ha : a.Denotes x) (fa : a.Fits) (hm : ¬ TextMisfires x) :
    Loop.toStr a ≠ .ub .outOfBounds := fun h => hm ((C68_to_string_exact_iff a x ha fa).1 h).1

/-- The full claim is false: -10^17 has 18 digits. -/
theorem C68_refuted : ¬ ∀ (a : BigInt) (x : Int), a.Denotes x → a.Fits → Loop.toStr a ≠ .ub .outOfBounds := by
  intro h
  have hd : BigInt.Denotes ⟨-1, [1569325056, 23283064]⟩ (-100000000000000000) :=
    BigInt.denotes_big (.inr rfl) (by decide) (by decide) (by decide) (by decide) (by decide)
  refine h _ _ hd (by decide) ((C68_to_string_exact_iff _ _ hd (by decide)).2 ⟨⟨by decide, ?_⟩, by decide⟩)
  decide +kernel

/-- `actual_length(value, length)` on an array that has `length` elements. -/
theorem C68_actual_length (value : List Nat) (n : Nat) (h : n ≤ value.length) :
    ∃ k ≤ n, Loop.actualLength value n = .ok k ∧ (∀ w ∈ (value.take n).drop k, w = 0) ∧ (k ≠ 0 → value[k - 1]? ≠ some 0) := by
  have key : ∀ n, n ≤ value.length → ∃ k ≤ n, Loop.trim value n = .ok k ∧ (∀ w ∈ (value.take n).drop k, w = 0) ∧
      (k ≠ 0 → value[k - 1]? ≠ some 0) := by
    intro n
    induction n with
    | zero => exact fun _ => ⟨0, by omega, rfl, by simp, by simp⟩
    | succ n ih =>
      intro hn
      rw [Loop.trim, idx_eq (by omega), Res.ok_bind]
      have hg : value[n]? = some value[n] := List.getElem?_eq_getElem (by omega)
      by_cases hx : value[n] = 0
      · obtain ⟨k, h1, h2, h3, h4⟩ := ih (by omega)
        rw [if_pos hx]
        refine ⟨k, by omega, h2, fun w hw => ?_, h4⟩
        rw [List.take_add_one, hg, List.drop_append_of_le_length (by rw [List.length_take]; omega), List.mem_append] at hw
        rcases hw with hw | hw
        · exact h3 w hw
        · simp at hw; rw [hw, hx]
      · rw [if_neg hx]
        refine ⟨n + 1, le_refl _, rfl, ?_, fun _ => ?_⟩
        · rw [List.drop_eq_nil_of_le (by rw [List.length_take]; omega)]; simp
        · rw [Nat.add_sub_cancel, hg]; simpa using hx
  exact key n h

/-- The loop of `lehmer_core` over `n` digits of arrays that have them. -/
theorem C68_lehmer (a b c d : Int) (n : Nat) (x y : List Nat) (hx : n ≤ x.length) (hy : n ≤ y.length) :
    Loop.lehmerLoop a b c d n x y ≠ .ub .outOfBounds := by
  rw [Loop.lehmerLoop_eq]
  have key : ∀ (n : Nat) (x y : List Nat) (xc yc : Int), n ≤ x.length → n ≤ y.length →
      Inside (BigIntegerCpp.lehmerLoop a b c d n x y xc yc) := by
    intro n
    induction n with
    | zero => intro x y xc yc _ _; exact inside_ok
    | succ n ih =>
      intro x y xc yc hx hy
      cases x with
      | nil => simp at hx
      | cons x xs =>
        cases y with
        | nil => simp at hy
        | cons y ys =>
          rw [BigIntegerCpp.lehmerLoop]
          exact Inside.bind inside_long fun _ _ => Inside.bind inside_long fun _ _ => Inside.bind inside_long fun _ _ =>
            Inside.bind inside_long fun _ _ => Inside.bind inside_long fun _ _ => Inside.bind inside_long fun _ _ =>
            Inside.bind inside_long fun _ _ => Inside.bind inside_long fun _ _ =>
            ih xs ys _ _ (by simpa using hx) (by simpa using hy)
  exact key n x y 0 0 hx hy

/-! ### the loops are the functions of the other properties -/

theorem C68_model_arrays (ws : List Nat) (negative isUnsigned isBigEndian : Bool) (s : List Char) :
    Loop.twos ws = .ok (twosComplement ws) ∧ Loop.ofMagnitude ws negative = ofMagnitude ws negative ∧
    Loop.ofTwos ws = ofTwos ws ∧ Loop.ofBytes ws isUnsigned isBigEndian = ofBytes ws isUnsigned isBigEndian ∧
    Loop.parse s = BigInt.parse s :=
  ⟨Loop.twos_eq ws, Loop.ofMagnitude_eq ws negative, Loop.ofTwos_eq ws, Loop.ofBytes_eq ws isUnsigned isBigEndian, Loop.parse_eq s⟩

theorem C68_model_objects (a b : BigInt) (n : Int) (mode : GetBytesMode) (isUnsigned isBigEndian hasPtr : Bool) :
    Loop.compareTo a b = a.compareTo b ∧ Loop.equals a b = a.equals b ∧ Loop.isPowerOfTwo a = a.isPowerOfTwo ∧
    Loop.hashCode a = .ok a.hashCode ∧ Loop.shl a n = a.shl n ∧ Loop.shr a n = a.shr n ∧
    Loop.toUInt32Array a = a.toUInt32Array ∧ Loop.and a b = a.and b ∧ Loop.or a b = a.or b ∧ Loop.xor a b = a.xor b ∧
    Loop.bitLength a = a.bitLength ∧ Loop.toStr a = a.toStr ∧
    Loop.toBytesMode a mode isUnsigned isBigEndian hasPtr = a.toBytesMode mode isUnsigned isBigEndian hasPtr :=
  ⟨Loop.compareTo_eq a b, Loop.equals_eq a b, Loop.isPowerOfTwo_eq a, Loop.hashCode_eq a, Loop.shl_eq a n, Loop.shr_eq a n,
    Loop.toUInt32Array_eq a, Loop.and_eq a b, Loop.or_eq a b, Loop.xor_eq a b, Loop.bitLength_eq a, Loop.toStr_eq a,
    Loop.toBytesMode_eq a mode isUnsigned isBigEndian hasPtr⟩

theorem C68_model_buffers (a b c d : Int) (n : Nat) (x y : List Nat) :
    Loop.actualLength x n = actualLength x n ∧ Loop.lehmerLoop a b c d n x y = lehmerLoop a b c d n x y 0 0 :=
  ⟨Loop.actualLength_eq x n, Loop.lehmerLoop_eq a b c d n x y⟩

/-! ### the hypotheses are met; accesses outside an array do show -/

example : Loop.toBytesMode neg3 .allocateArray false true true ≠ .ub .outOfBounds :=
  C68_to_bytes _ _ neg3_denotes (by decide) .allocateArray false true true
example : Loop.ofBytes [255, 1, 2, 3, 128] false true ≠ .ub .outOfBounds := C68_of_bytes _ (by decide) false true
example : ∃ n, Loop.bitLength neg3 = .ok n := C68_bit_length _ _ neg3_denotes neg3_fits
example : Loop.toStr neg3 ≠ .ub .outOfBounds := C68_to_string_partial _ _ neg3_denotes neg3_fits (by
  rintro ⟨-, h⟩; revert h; decide +kernel)
example : ∃ k ≤ 3, Loop.actualLength [5, 0, 0, 7] 3 = .ok k ∧ (∀ w ∈ ([5, 0, 0, 7].take 3).drop k, w = 0) ∧
    (k ≠ 0 → [5, 0, 0, 7][k - 1]? ≠ some 0) := C68_actual_length _ 3 (by decide)
example : Loop.lehmerLoop 3 1 1 2 2 [1, 2, 3] [4, 5] ≠ .ub .outOfBounds := C68_lehmer 3 1 1 2 2 _ _ (by decide) (by decide)
example : Returns (Loop.parse "-12x".toList) (-12) := C68_parse "-12x".toList (by decide)
example : Loop.lehmerLoop 3 1 1 2 3 [1, 2, 3] [4, 5] = .ub .outOfBounds ∧ Loop.trim [5, 0] 3 = .ub .outOfBounds ∧
    Loop.copy [1, 2] 3 [0, 0, 0] = .ub .outOfBounds ∧ Loop.firstNonZero [0, 0] 0 = .ub .outOfBounds := by
  decide +kernel
/-- The loops at work. -/
example : Loop.shl neg3 75 = neg3.shl 75 ∧ Loop.toStr pos2 = .ok "38654705667".toList :=
  ⟨Loop.shl_eq _ _, by rw [Loop.toStr_eq]; exact C30_to_string_nonneg _ _ pos2_denotes (by decide) (by decide)⟩

end BigIntegerCpp
