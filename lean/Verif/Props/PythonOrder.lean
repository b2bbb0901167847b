import Verif.Lemmas.PythonOrder
import Verif.Props.PythonObject
/-
C91: the conversion functions of the Python bindings with their parameters for byte order and sign.
PythonOrderSpec.lean says which bytes stand for an integer.
-/
set_option linter.unusedSectionVars false
namespace BigIntegerCpp
open Samples
variable [Cfg]

/-- With the default arguments they are the functions of C44. -/
theorem C91_defaults (n : PyInt) (a : BigInt) : toBigIntegerIn n false = toBigInteger n ∧ toPyIntIn a true false = toPyInt a := by
  refine ⟨?_, rfl⟩
  unfold toBigIntegerIn toBigInteger asByteArrayIn
  by_cases hz : n.isZeroObject = true
  · rw [if_pos hz, if_pos hz]
  rw [if_neg hz, if_neg hz]
  dsimp only
  rcases asByteArray n.value _ _ with _ | b
  · rfl
  · rfl

/-- `to_py_int(a, is_signed, is_bigendian)`: the integer in each of the four forms, unless the form is unsigned and `a`
negative, which raises an exception. -/
theorem C91_to_int (a : BigInt) (x : Int) (ha : a.Denotes x) (hl : a.bits.length < 2 ^ 29) (isSigned isBigEndian : Bool) :
    toPyIntIn a isSigned isBigEndian = if isSigned = false ∧ x < 0 then .throw .runtimeError else .ok x := by
  unfold toPyIntIn
  have h := C52_to_array a x ha hl (!isSigned) isBigEndian
  unfold pyToArray at h
  by_cases hc : isSigned = false ∧ x < 0
  · rw [if_pos hc]
    obtain ⟨rfl, hx⟩ := hc
    have := (C27_unsigned_negative_throws a x ha isBigEndian hx).1
    rw [show (!false) = true from rfl, this]
    rfl
  · rw [if_neg hc]
    rcases h with ⟨h1, h2, -⟩ | ⟨v, h1, -, h3⟩
    · exact absurd ⟨by simpa using h1, h2⟩ hc
    · rw [h1, Res.ok_bind]
      congr 1
      rw [← h3]
      cases isSigned <;> cases isBigEndian <;> rfl

section
private theorem read {v : Int} {w : List Nat} (h : BigEndianBytes v w) (k : Nat) (hk : k < 2 ^ 34 - 184) (hn : v.natAbs < 2 ^ k)
    (hs : Cfg.strictShift = false) (u : Bool) : Returns (ofBytes w u false) (bytesValue u false w) := by
  have h1 : w.length < 2147483648 := by
    have h2 := numBits_le hn
    have h3 := h.length
    unfold bufferBytes at h3
    rw [magnitudeBytes_eq] at h3
    norm_num at hk
    split_ifs at h3 <;> omega
  have := ofBytes_spec w h1 h.bytes u false
  rwa [if_neg (by rw [hs]; simp)] at this
end

/-- What `to_biginteger(n, true)` computes, for every `n`: the bytes are written most significant first and read least
significant first. -/
theorem C91_actual (n : PyInt) (w : List Nat) (hw : BigEndianBytes n.value w) (k : Nat) (hk : k < 2 ^ 34 - 184)
    (hn : n.value.natAbs < 2 ^ k) (hs : Cfg.strictShift = false) :
    Returns (toBigIntegerIn n true) (bytesValue (decide (0 ≤ n.value)) false w) := by
  by_cases h0 : 0 ≤ n.value
  · obtain ⟨w', h1, h2⟩ := toBigIntegerIn_nonneg n h0
    rw [h2, hw.unique h1, show decide (0 ≤ n.value) = true by simpa using h0]
    exact read h1 k hk hn hs true
  · obtain ⟨w', h1, h2⟩ := toBigIntegerIn_neg n (by omega)
    rw [h2, hw.unique h1, show decide (0 ≤ n.value) = false by simpa using h0]
    exact read h1 k hk hn hs false

/-- Such bytes exist, once for every integer. -/
theorem C91_bytes_exist (v : Int) : ∃ w, BigEndianBytes v w ∧ ∀ w', BigEndianBytes v w' → w' = w := by
  by_cases h0 : 0 ≤ v
  · obtain ⟨w, h1, -⟩ := toBigIntegerIn_nonneg ⟨v, false, by simp⟩ h0
    exact ⟨w, h1, fun w' h => h.unique h1⟩
  · obtain ⟨w, h1, -⟩ := toBigIntegerIn_neg ⟨v, false, by simp⟩ (by simpa using h0)
    exact ⟨w, h1, fun w' h => h.unique h1⟩

/-- C91 made exact: `to_biginteger(n, true)` is `n` if and only if the bytes of `n` read the same in both directions. -/
theorem C91_exact_iff (n : PyInt) (w : List Nat) (hw : BigEndianBytes n.value w) (k : Nat) (hk : k < 2 ^ 34 - 184)
    (hn : n.value.natAbs < 2 ^ k) (hs : Cfg.strictShift = false) :
    Returns (toBigIntegerIn n true) n.value ↔ w.reverse = w := by
  have h := C91_actual n w hw k hk hn hs
  have hrev : ∀ u, bytesValue u true w = bytesValue u false w.reverse := fun u => by cases u <;> rfl
  constructor
  · rintro ⟨b, e, hb⟩
    obtain ⟨b', e', hb'⟩ := h
    rw [e] at e'
    cases e'
    have hv := hw.value
    rw [hrev] at hv
    exact bytesValue_inj (bytesOk_reverse hw.bytes) hw.bytes (by simp) (hv.trans (hb.2.symm.trans hb'.2))
  · intro he
    have hv := hw.value
    rw [hrev, he] at hv
    rwa [hv] at h

/-- C91, partial: the full statement has no condition on the bytes. -/
theorem C91_of_int_partial (n : PyInt) (isBigEndian : Bool) (w : List Nat) (hw : BigEndianBytes n.value w)
    (hp : isBigEndian = false ∨ w.reverse = w) (k : Nat) (hk : k < 2 ^ 34 - 184) (hn : n.value.natAbs < 2 ^ k)
    (hs : Cfg.strictShift = false) : Returns (toBigIntegerIn n isBigEndian) n.value := by
  cases isBigEndian with
  | false =>
    rw [(C91_defaults n zeroInt).1]
    exact C44_of_int n k hk hn hs
  | true => exact (C91_exact_iff n w hw k hk hn hs).2 (hp.resolve_left (by simp))

/-- All numbers of one byte are converted right in both byte orders. -/
theorem C91_one_byte (n : PyInt) (h0 : 0 ≤ n.value) (h1 : n.value < 256) (isBigEndian : Bool) (hs : Cfg.strictShift = false) :
    Returns (toBigIntegerIn n isBigEndian) n.value := by
  obtain ⟨w, hw, -⟩ := C91_bytes_exist n.value
  refine C91_of_int_partial n isBigEndian w hw (.inr ?_) 8 (by decide) (by omega) hs
  have hl : w.length ≤ 1 := by
    rw [hw.length, bufferBytes, if_pos h0, magnitudeBytes_eq]
    have := numBits_le (v := n.value) (k := 8) (by omega)
    omega
  match w, hl with
  | [], _ => rfl
  | [_], _ => rfl

/-- C91 as stated is false: `to_biginteger(256, true)` is 1. -/
theorem C91_refuted (hs : Cfg.strictShift = false) : ∃ n : PyInt, n.value = 256 ∧ Returns (toBigIntegerIn n true) 1 := by
  have hw : BigEndianBytes 256 [1, 0] := ⟨by decide, by decide +kernel, by decide⟩
  exact ⟨⟨256, false, by simp⟩, rfl, C91_actual ⟨256, false, by simp⟩ [1, 0] hw 9 (by decide) (by decide) hs⟩

example (hs : Cfg.strictShift = false) : Returns (toBigIntegerIn ⟨0x7856, false, by simp⟩ true) 0x5678 :=
  C91_actual ⟨0x7856, false, by simp⟩ [0x78, 0x56] ⟨by decide, by decide +kernel, by decide⟩ 15 (by decide) (by decide) hs
/-- `-2^15 - 2^8 + 128 = 0xff7f80` takes three bytes and comes out as `0x807fff`, which is negative too. -/
example (hs : Cfg.strictShift = false) : Returns (toBigIntegerIn ⟨-0x8080, false, by simp⟩ true) (-0x7f8001) :=
  C91_actual ⟨-0x8080, false, by simp⟩ [0xff, 0x7f, 0x80] ⟨by decide, by decide +kernel, by decide⟩ 16 (by decide) (by decide) hs
/-- `-256 = 0xffff00` comes out as `0x00ffff`. -/
example (hs : Cfg.strictShift = false) : Returns (toBigIntegerIn ⟨-256, false, by simp⟩ true) 0xffff :=
  C91_actual ⟨-256, false, by simp⟩ [0xff, 0xff, 0x00] ⟨by decide, by decide +kernel, by decide⟩ 9 (by decide) (by decide) hs
example (hs : Cfg.strictShift = false) : Returns (toBigIntegerIn ⟨-0x7fff80 + 1, false, by simp⟩ true) (-0x7fff80 + 1) ↔
    [0x80, 0x00, 0x81].reverse = [0x80, 0x00, 0x81] :=
  C91_exact_iff ⟨-0x7fff80 + 1, false, by simp⟩ [0x80, 0x00, 0x81] ⟨by decide, by decide +kernel, by decide⟩ 24 (by decide) (by decide) hs
example (hs : Cfg.strictShift = false) : Returns (toBigIntegerIn ⟨0x123412, false, by simp⟩ true) 0x123412 :=
  C91_of_int_partial ⟨0x123412, false, by simp⟩ true [0x12, 0x34, 0x12] ⟨by decide, by decide +kernel, by decide⟩ (.inr (by decide)) 24
    (by decide) (by decide) hs
example (hs : Cfg.strictShift = false) : Returns (toBigIntegerIn ⟨200, false, by simp⟩ true) 200 :=
  C91_one_byte ⟨200, false, by simp⟩ (by decide) (by decide) true hs
example : toPyIntIn neg3 true true = .ok (-18446744103774322693) :=
  C91_to_int neg3 _ neg3_denotes (by decide) true true
example : toPyIntIn neg3 false true = .throw .runtimeError :=
  C91_to_int neg3 _ neg3_denotes (by decide) false true
example : toPyIntIn pos2 false true = .ok 38654705667 :=
  C91_to_int pos2 _ pos2_denotes (by decide) false true
/-- The hypothesis of `C91_bytes_exist` is none; the bytes of `-128` are `0x80`. -/
example : BigEndianBytes (-128) [0x80] := ⟨by decide, by decide +kernel, by decide⟩

end BigIntegerCpp
