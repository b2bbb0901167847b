import Verif.Lemmas.ToBytes
import Verif.Props.Samples
/-
C25–C29: byte arrays.  `bytesValue` (Spec.lean) says what an array of bytes stands for.
-/
namespace BigIntegerCpp
open Samples
variable [Cfg]

/-! ### C25 byte-array constructor -/

/-- Exact for every byte array, signedness and byte order.  Missing from the full claim: negative
values in at most four bytes under the letter of C++17, where `-1 << 8` is undefined
(`C25_strict_shift`).  GCC, Clang and C++20 define it; there the claim holds without exception
(`C25_of_bytes`). -/
theorem C25_of_bytes_partial (v : List Nat) (hb : BytesOk v) (hl : v.length < 2 ^ 31) (isUnsigned isBigEndian : Bool)
    (h : Cfg.strictShift = false ∨ 0 ≤ bytesValue isUnsigned isBigEndian v ∨ 4 < v.length) :
    Returns (ofBytes v isUnsigned isBigEndian) (bytesValue isUnsigned isBigEndian v) := by
  have := ofBytes_spec v hl hb isUnsigned isBigEndian
  rwa [if_neg] at this
  rintro ⟨h1, h2, h3⟩
  rcases h with h | h | h
  · rw [h] at h1; cases h1
  · omega
  · omega

theorem C25_of_bytes (v : List Nat) (hb : BytesOk v) (hl : v.length < 2 ^ 31) (isUnsigned isBigEndian : Bool)
    (h : Cfg.strictShift = false) :
    Returns (ofBytes v isUnsigned isBigEndian) (bytesValue isUnsigned isBigEndian v) :=
  C25_of_bytes_partial v hb hl isUnsigned isBigEndian (.inl h)

theorem C25_strict_shift (v : List Nat) (hb : BytesOk v) (isUnsigned isBigEndian : Bool)
    (hs : Cfg.strictShift = true) (hneg : bytesValue isUnsigned isBigEndian v < 0) (hl : v.length ≤ 4) :
    ofBytes v isUnsigned isBigEndian = .ub .badShift := by
  have := ofBytes_spec v (by omega) hb isUnsigned isBigEndian
  rwa [if_pos ⟨hs, hneg, hl⟩] at this

example : bytesValue false false [0x85, 0xff, 0xff, 0xff, 0xff, 0xff] = -123 ∧
    bytesValue false true [0x85, 0x00, 0x01] = -8060927 ∧ bytesValue true true [0x85, 0x00, 0x01] = 8716289 ∧
    bytesValue false false [0x85, 0, 0] = 133 ∧ bytesValue false true [] = 0 := by decide
example : Returns (ofBytes [0x85, 0xff, 0xff, 0xff, 0xff, 0xff] false false) (-123) :=
  C25_of_bytes_partial _ (by decide) (by decide) false false (.inr (.inr (by decide)))

/-! ### export: one lemma for C26–C28 -/

private theorem export_all (a : BigInt) (x : Int) (ha : a.Denotes x) (hl : a.bits.length < 536870912)
    (uns be : Bool) (hu : uns = true → 0 ≤ x) :
    ∃ v, a.toBytes uns be = .ok v ∧ BytesOk v ∧ (v ≠ [] ∧ v.length < 2 ^ 31) ∧ bytesValue uns be v = x ∧ a.byteCount uns = .ok v.length ∧
      a.toBytes uns (!be) = .ok v.reverse ∧
      (∀ w, BytesOk w → w ≠ [] → bytesValue uns be w = x → v.length ≤ w.length) := by
  by_cases h0 : x = 0
  · subst h0
    obtain rfl := ha.unique denotes_zero
    refine ⟨[0], rfl, by decide, ⟨by simp, by decide⟩, ?_, rfl, rfl, fun w _ h2 _ => List.length_pos_iff.2 h2⟩
    cases uns <;> cases be <;> decide
  · obtain ⟨r, r1, r2, r3, r4, r5, r6, r7⟩ := BigInt.toBytesMode_spec ha h0 uns (fun h => by have := hu h; omega) hl
    have hto : ∀ be, a.toBytes uns be = .ok (if be then r.reverse else r) := by
      intro be
      unfold BigInt.toBytes
      rw [r7, if_neg (by decide)]; rfl
    have hcnt : a.byteCount uns = .ok r.length := by
      unfold BigInt.byteCount
      rw [r7, if_pos rfl, if_pos rfl]; rfl
    have hval : ∀ be w, bytesValue uns be (if be then w.reverse else w) =
        if uns then ((digitsVal 256 w : Nat) : Int) else signedVal 8 w := by
      intro be w; unfold bytesValue; cases be <;> simp
    refine ⟨if be then r.reverse else r, hto be, ?_, ?_, ?_, ?_, ?_, ?_⟩
    · cases be
      · exact r1
      · intro w hw; exact r1 w (by simpa using hw)
    · exact ⟨by cases be <;> simpa using r2.1, by cases be <;> simpa using r2.2⟩
    · rw [hval]
      cases uns
      · simp only [Bool.false_eq_true, if_false]
        rw [signedVal_eq (r4 rfl), r3]
      · have h1 : decide (x < 0) = false := by have := hu rfl; simp; omega
        rw [h1, extVal_8] at r3
        simpa using r3
    · rw [hcnt]; cases be <;> simp
    · rw [hto]; cases be <;> simp
    · intro w h1 h2 h3
      have h4 : ∀ w', w = (if be then w'.reverse else w') → BytesOk w' → w' ≠ [] → r.length ≤ w'.length := by
        intro w' e k1 k2
        rw [e, hval] at h3
        cases uns
        · exact r5 rfl w' k1 k2 (by simpa using h3)
        · exact r6 rfl w' k1 (by simpa using h3)
      have := h4 (if be then w.reverse else w) (by cases be <;> simp)
        (by cases be; exacts [h1, fun b hb => h1 b (by simpa using hb)]) (by cases be <;> simpa using h2)
      cases be <;> simpa using this

/-! ### C26 signed round trip -/

/-- `BigInteger(a.to_byte_array(false, be), false, be) == a` (as compiled by GCC or Clang; see C25
for the letter of C++17). -/
theorem C26_signed_bytes_round_trip (a : BigInt) (x : Int) (ha : a.Denotes x) (hl : a.bits.length < 2 ^ 29) (be : Bool)
    (hs : Cfg.strictShift = false) :
    ∃ v, a.toBytes false be = .ok v ∧ bytesValue false be v = x ∧ ofBytes v false be = .ok a := by
  obtain ⟨v, h1, h2, ⟨-, hlen⟩, h4, -, -, -⟩ := export_all a x ha hl false be (by simp)
  obtain ⟨b, k1, k2⟩ := C25_of_bytes v h2 hlen false be hs
  rw [h4] at k2
  exact ⟨v, h1, h4, by rw [k1, k2.unique ha]⟩

/-- Under the letter of C++17 the round trip still holds for values outside the `int` range and for
values that are not negative. -/
theorem C26_signed_bytes_round_trip_partial (a : BigInt) (x : Int) (ha : a.Denotes x) (hl : a.bits.length < 2 ^ 29)
    (be : Bool) (hx : 0 ≤ x ∨ x < -2 ^ 31) :
    ∃ v, a.toBytes false be = .ok v ∧ bytesValue false be v = x ∧ ofBytes v false be = .ok a := by
  obtain ⟨v, h1, h2, ⟨h3, hlen⟩, h4, -, -, -⟩ := export_all a x ha hl false be (by simp)
  have hc : 0 ≤ bytesValue false be v ∨ 4 < v.length := by
    rw [h4]
    rcases hx with hx | hx
    · exact .inl hx
    · right
      have hb := signedVal_bounds (n := 8) (by decide) (ws := if be then v.reverse else v)
        (digitsOk_8.2 (by cases be; exacts [h2, fun b hb => h2 b (by simpa using hb)])) (by cases be <;> simpa using h3)
      have hbv : signedVal 8 (if be then v.reverse else v) = x := by
        rw [← h4]; unfold bytesValue; simp
      have hl2 : (if be then v.reverse else v).length = v.length := by cases be <;> simp
      rw [hbv, hl2] at hb
      by_contra hcon
      have : (2 : Int) ^ (8 * v.length - 1) ≤ 2 ^ 31 := pow_le_pow_right₀ (by decide) (by omega)
      omega
  obtain ⟨b, k1, k2⟩ := C25_of_bytes_partial v h2 hlen false be (.inr hc)
  rw [h4] at k2
  exact ⟨v, h1, h4, by rw [k1, k2.unique ha]⟩

example : ∃ v, neg3.toBytes false true = .ok v ∧ bytesValue false true v = -18446744103774322693 ∧
    ofBytes v false true = .ok neg3 :=
  C26_signed_bytes_round_trip_partial _ _ neg3_denotes (by decide) true (.inr (by decide))

/-! ### C27 unsigned round trip -/

theorem C27_unsigned_bytes_round_trip (a : BigInt) (x : Int) (ha : a.Denotes x) (hl : a.bits.length < 2 ^ 29) (be : Bool)
    (hx : 0 ≤ x) :
    ∃ v, a.toBytes true be = .ok v ∧ bytesValue true be v = x ∧ ofBytes v true be = .ok a := by
  obtain ⟨v, h1, h2, ⟨-, hlen⟩, h4, -, -, -⟩ := export_all a x ha hl true be (fun _ => hx)
  obtain ⟨b, k1, k2⟩ := C25_of_bytes_partial v h2 hlen true be (.inr (.inl (by rw [h4]; exact hx)))
  rw [h4] at k2
  exact ⟨v, h1, h4, by rw [k1, k2.unique ha]⟩

theorem C27_unsigned_negative_throws (a : BigInt) (x : Int) (ha : a.Denotes x) (be : Bool) (hx : x < 0) :
    a.toBytes true be = .throw .runtimeError ∧ a.byteCount true = .throw .runtimeError := by
  have h1 := ha.sign_neg.2 hx
  unfold BigInt.toBytes BigInt.byteCount BigInt.toBytesMode
  rw [if_neg (by omega), if_pos ⟨rfl, h1⟩, if_neg (by omega), if_pos ⟨rfl, h1⟩]
  exact ⟨rfl, rfl⟩

example : ∃ v, pos2.toBytes true true = .ok v ∧ bytesValue true true v = 38654705667 ∧ ofBytes v true true = .ok pos2 :=
  C27_unsigned_bytes_round_trip _ _ pos2_denotes (by decide) true (by decide)

/-! ### C28 minimal, predicted length; byte orders -/

/-- The array stands for the value, no shorter (non-empty) array does, `get_byte_count` is its
length, and the other byte order gives the reversed array. -/
theorem C28_minimal_bytes (a : BigInt) (x : Int) (ha : a.Denotes x) (hl : a.bits.length < 2 ^ 29)
    (isUnsigned be : Bool) (hu : isUnsigned = true → 0 ≤ x) :
    ∃ v, a.toBytes isUnsigned be = .ok v ∧ (BytesOk v ∧ v ≠ []) ∧ bytesValue isUnsigned be v = x ∧
      (∀ w, BytesOk w → w ≠ [] → bytesValue isUnsigned be w = x → v.length ≤ w.length) ∧
      a.byteCount isUnsigned = .ok v.length ∧ a.toBytes isUnsigned (!be) = .ok v.reverse := by
  obtain ⟨v, h1, h2, h3, h4, h5, h6, h7⟩ := export_all a x ha hl isUnsigned be hu
  exact ⟨v, h1, ⟨h2, h3.1⟩, h4, h7, h5, h6⟩

example : ∃ v, neg3.toBytes false false = .ok v ∧ (BytesOk v ∧ v ≠ []) ∧ bytesValue false false v = -18446744103774322693 ∧
    (∀ w, BytesOk w → w ≠ [] → bytesValue false false w = -18446744103774322693 → v.length ≤ w.length) ∧
    neg3.byteCount false = .ok v.length ∧ neg3.toBytes false true = .ok v.reverse :=
  C28_minimal_bytes _ _ neg3_denotes (by decide) false false (by simp)

/-! ### C29 the overload with an explicit mode and default arguments -/

/-- With the default `bytesWritten` (null) the allocating mode returns the same bytes as
`to_byte_array()`.  Missing from the full claim: zero, and the counting mode
(`C29_null_pointer`). -/
theorem C29_explicit_mode_partial (a : BigInt) (x : Int) (ha : a.Denotes x) (h0 : x ≠ 0) (hl : a.bits.length < 2 ^ 29) :
    ∃ v, a.toBytesMode .allocateArray false false false = .ok (v, none) ∧ a.toBytes false false = .ok v := by
  obtain ⟨r, -, -, -, -, -, -, r7⟩ := BigInt.toBytesMode_spec ha h0 false (by simp) hl
  refine ⟨r, ?_, ?_⟩
  · rw [r7]; rfl
  · unfold BigInt.toBytes; rw [r7]; rfl

/-- With the default `bytesWritten` the counting mode, and both modes on zero, write through the
null pointer. -/
theorem C29_null_pointer (a : BigInt) (x : Int) (ha : a.Denotes x) (hl : a.bits.length < 2 ^ 29) (mode : GetBytesMode)
    (h : mode = .count ∨ x = 0) : a.toBytesMode mode false false false = .ub .nullDeref := by
  by_cases h0 : x = 0
  · subst h0
    obtain rfl := ha.unique denotes_zero
    cases mode <;> rfl
  · obtain ⟨r, -, -, -, -, -, -, r7⟩ := BigInt.toBytesMode_spec ha h0 false (by simp) hl
    rw [r7, if_pos (h.resolve_right h0)]; rfl

/-- The full claim is false, already for zero and the allocating mode. -/
theorem C29_refuted : zeroInt.Denotes 0 ∧ zeroInt.toBytesMode .allocateArray false false false = .ub .nullDeref :=
  ⟨denotes_zero, rfl⟩

example : ∃ v, neg3.toBytesMode .allocateArray false false false = .ok (v, none) ∧ neg3.toBytes false false = .ok v :=
  C29_explicit_mode_partial _ _ neg3_denotes (by decide) (by decide)

/-! ### instances of the remaining theorems -/

example (h : Cfg.strictShift = false) : Returns (ofBytes [0x85, 0x00, 0x01] false true) (-8060927) :=
  C25_of_bytes _ (by decide) (by decide) false true h
example (h : Cfg.strictShift = true) : ofBytes [0x85, 0x00, 0x01] false true = .ub .badShift :=
  C25_strict_shift _ (by decide) false true h (by decide) (by decide)
example (h : Cfg.strictShift = false) : ∃ v, small.toBytes false true = .ok v ∧ bytesValue false true v = -42 ∧
    ofBytes v false true = .ok small := C26_signed_bytes_round_trip _ _ small_denotes (by decide) true h
example : neg3.toBytes true false = .throw .runtimeError ∧ neg3.byteCount true = .throw .runtimeError :=
  C27_unsigned_negative_throws _ _ neg3_denotes false (by decide)
example : neg3.toBytesMode .count false false false = .ub .nullDeref := C29_null_pointer _ _ neg3_denotes (by decide) _ (.inl rfl)

end BigIntegerCpp
