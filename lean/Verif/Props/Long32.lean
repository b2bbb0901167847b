import Verif.Lemmas.Long32Conv
import Verif.Props.Samples
import Verif.Props.Convert
/-
C86: the library compiled where `long` has 32 bits, as on Windows.  For each operation that mentions the type: on which
arguments it still gives the right result, and what it does on the others.
-/
set_option linter.unusedSectionVars false
namespace BigIntegerCpp
open Samples
variable [Cfg]

private theorem returns_unique {r : Res BigInt} {x y : Int} (h : Returns r x) (h' : Returns r y) : x = y := by
  obtain ⟨b, e, h⟩ := h
  obtain ⟨b', e', h'⟩ := h'
  rw [e] at e'
  cases e'
  exact h.2.symm.trans h'.2

private theorem not_returns_ub {r : Res BigInt} {u : UB} (h : r = .ub u) (z : Int) : ¬ Returns r z := by
  rintro ⟨b, e, -⟩
  rw [h] at e
  cases e

/-- `2^64 - 1`. -/
def allOnes : BigInt := ⟨1, [4294967295, 4294967295]⟩
theorem allOnes_denotes : allOnes.Denotes (2 ^ 64 - 1) :=
  BigInt.denotes_big (.inl rfl) (by decide) (by decide) (by decide) (by decide) (by decide)

/-! ### addition -/

/-- Opposite signs (zero counts as positive), not both small: undefined, whatever the numbers are. -/
theorem C86_add_undefined (a b : BigInt) (x y : Int) (ha : a.Denotes x) (hb : b.Denotes y) (fa : a.Fits) (fb : b.Fits)
    (hs : ¬ (x < 0 ↔ y < 0)) (h : ¬ (IntSized x ∧ IntSized y)) : Long32.add a b = .ub .badShift :=
  (Long32.add_mixed ha hb fa fb hs).2 h

/-- Same sign, one small and one large, and a carry that should travel past the second word: the result is too small
by `2^64`. -/
theorem C86_add_wrong (a b : BigInt) (x y : Int) (ha : a.Denotes x) (hb : b.Denotes y) (fa : a.Fits) (fb : b.Fits)
    (hs : x < 0 ↔ y < 0) (h : ¬ (IntSized x ↔ IntSized y)) (hc : CarryLost x.natAbs y.natAbs) :
    Returns (Long32.add a b) (if x < 0 then x + y + 2 ^ 64 else x + y - 2 ^ 64) := by
  have := Long32.add_spec ha hb fa fb hs
  rw [if_pos ⟨h, hc⟩] at this
  by_cases hx : x < 0
  · rw [if_pos hx] at this ⊢; exact this
  · rw [if_neg hx] at this ⊢; exact this

/-- When the sum is right. -/
theorem C86_add_exact_iff (a b : BigInt) (x y : Int) (ha : a.Denotes x) (hb : b.Denotes y) (fa : a.Fits) (fb : b.Fits) :
    Returns (Long32.add a b) (x + y) ↔
      IntSized x ∧ IntSized y ∨ (x < 0 ↔ y < 0) ∧ ((IntSized x ↔ IntSized y) ∨ ¬ CarryLost x.natAbs y.natAbs) := by
  by_cases hs : x < 0 ↔ y < 0
  · have := Long32.add_spec ha hb fa fb hs
    by_cases h : ¬ (IntSized x ↔ IntSized y) ∧ CarryLost x.natAbs y.natAbs
    · rw [if_pos h] at this
      refine iff_of_false (fun h2 => ?_) (by tauto)
      have := returns_unique this h2
      split_ifs at this <;> omega
    · rw [if_neg h, add_zero] at this
      exact iff_of_true this (by tauto)
  · by_cases h : IntSized x ∧ IntSized y
    · exact iff_of_true ((Long32.add_mixed ha hb fa fb hs).1 h) (.inl h)
    · exact iff_of_false (not_returns_ub (C86_add_undefined a b x y ha hb fa fb hs h) _) (by tauto)

/-- `(2^64 - 1) + 1` is 0. -/
example : Returns (Long32.add allOnes oneInt) 0 :=
  C86_add_wrong _ _ _ 1 allOnes_denotes (BigInt.denotes_small (by decide) (by decide)) (by decide) (by decide) (by decide) (by decide) (by decide)
/-- `(9 * 2^32 + 3) + (-42)` is undefined, `(9 * 2^32 + 3) + (9 * 2^32 + 3)` is right. -/
example : Long32.add pos2 small = .ub .badShift ∧ Returns (Long32.add pos2 pos2) (38654705667 + 38654705667) :=
  ⟨C86_add_undefined _ _ _ _ pos2_denotes small_denotes pos2_fits small_fits (by decide) (by decide),
   (C86_add_exact_iff _ _ _ _ pos2_denotes pos2_denotes pos2_fits pos2_fits).2 (by decide)⟩

/-! ### subtraction -/

/-- Same sign, not both small: undefined; so is `x - 0` for every large positive `x`. -/
theorem C86_sub_undefined (a b : BigInt) (x y : Int) (ha : a.Denotes x) (hb : b.Denotes y) (fa : a.Fits) (fb : b.Fits)
    (hs : x < 0 ↔ y < 0) (h : ¬ (IntSized x ∧ IntSized y)) : Long32.sub a b = .ub .badShift :=
  (Long32.sub_same ha hb fa fb hs).2 h

theorem C86_sub_wrong (a b : BigInt) (x y : Int) (ha : a.Denotes x) (hb : b.Denotes y) (fa : a.Fits) (fb : b.Fits)
    (hs : ¬ (x < 0 ↔ y < 0)) (h : ¬ (IntSized x ↔ IntSized y)) (hc : CarryLost x.natAbs y.natAbs) :
    Returns (Long32.sub a b) (if x < 0 then x - y + 2 ^ 64 else x - y - 2 ^ 64) := by
  have := Long32.sub_mixed ha hb fa fb hs
  rw [if_pos ⟨h, hc⟩] at this
  by_cases hx : x < 0
  · rw [if_pos hx] at this ⊢; exact this
  · rw [if_neg hx] at this ⊢; exact this

theorem C86_sub_exact_iff (a b : BigInt) (x y : Int) (ha : a.Denotes x) (hb : b.Denotes y) (fa : a.Fits) (fb : b.Fits) :
    Returns (Long32.sub a b) (x - y) ↔
      IntSized x ∧ IntSized y ∨ ¬ (x < 0 ↔ y < 0) ∧ ((IntSized x ↔ IntSized y) ∨ ¬ CarryLost x.natAbs y.natAbs) := by
  by_cases hs : x < 0 ↔ y < 0
  · by_cases h : IntSized x ∧ IntSized y
    · exact iff_of_true ((Long32.sub_same ha hb fa fb hs).1 h) (.inl h)
    · exact iff_of_false (not_returns_ub (C86_sub_undefined a b x y ha hb fa fb hs h) _) (by tauto)
  · have := Long32.sub_mixed ha hb fa fb hs
    by_cases h : ¬ (IntSized x ↔ IntSized y) ∧ CarryLost x.natAbs y.natAbs
    · rw [if_pos h] at this
      refine iff_of_false (fun h2 => ?_) (by tauto)
      have := returns_unique this h2
      split_ifs at this <;> omega
    · rw [if_neg h, add_zero] at this
      exact iff_of_true this (by tauto)

/-- `(2^64 - 1) - (-1)` is 0, `(9 * 2^32 + 3) - 0` undefined, `(9 * 2^32 + 3) - (-42)` right. -/
example : Returns (Long32.sub allOnes ⟨-1, []⟩) 0 ∧ Long32.sub pos2 zeroInt = .ub .badShift ∧ Returns (Long32.sub pos2 small) (38654705667 - -42) :=
  ⟨C86_sub_wrong _ _ _ (-1) allOnes_denotes (BigInt.denotes_small (by decide) (by decide)) (by decide) (by decide) (by decide) (by decide) (by decide),
   C86_sub_undefined _ _ _ 0 pos2_denotes denotes_zero pos2_fits (by decide) (by decide) (by decide),
   (C86_sub_exact_iff _ _ _ _ pos2_denotes small_denotes pos2_fits small_fits).2 (by decide)⟩

/-! ### `++`, `--`, `~` -/

/-- `++` is right on small numbers and on the large positive ones that do not end in 64 ones; it is undefined on every large
negative number. -/
theorem C86_increment (a : BigInt) (x : Int) (ha : a.Denotes x) (fa : a.Fits) :
    (Returns (Long32.inc a) (x + 1) ↔ IntSized x ∨ 0 ≤ x ∧ x % 2 ^ 64 ≠ 2 ^ 64 - 1) ∧
    (0 ≤ x → x % 2 ^ 64 = 2 ^ 64 - 1 → Returns (Long32.inc a) (x + 1 - 2 ^ 64)) ∧
    (x ≤ -2 ^ 31 → Long32.inc a = .ub .badShift) := by
  have h1 : oneInt.Denotes 1 := BigInt.denotes_small (by decide) (by decide)
  have hi : IntSized 1 := by decide
  have hc : CarryLost x.natAbs (1 : Int).natAbs ↔ x.natAbs % 2 ^ 64 = 2 ^ 64 - 1 := by unfold CarryLost; norm_num; omega
  refine ⟨?_, fun h2 h3 => ?_, fun h2 => C86_add_undefined a oneInt x 1 ha h1 fa (by decide) (by omega) (by unfold IntSized; omega)⟩
  · unfold Long32.inc
    rw [C86_add_exact_iff a oneInt x 1 ha h1 fa (by decide), hc]
    have : ¬ (1 : Int) < 0 := by decide
    simp only [hi, and_true, iff_true, this, iff_false]
    unfold IntSized
    omega
  · have := C86_add_wrong a oneInt x 1 ha h1 fa (by decide) (by omega) (by have : ¬ IntSized x := by { unfold IntSized; omega }; tauto) (hc.2 (by omega))
    rwa [if_neg (by omega)] at this

/-- `--` is right on small numbers and on the large negative ones whose magnitude does not end in 64 ones; it is undefined on
every large positive number. -/
theorem C86_decrement (a : BigInt) (x : Int) (ha : a.Denotes x) (fa : a.Fits) :
    (Returns (Long32.dec a) (x - 1) ↔ IntSized x ∨ x < 0 ∧ x.natAbs % 2 ^ 64 ≠ 2 ^ 64 - 1) ∧
    (x < 0 → x.natAbs % 2 ^ 64 = 2 ^ 64 - 1 → Returns (Long32.dec a) (x - 1 + 2 ^ 64)) ∧
    (2 ^ 31 ≤ x → Long32.dec a = .ub .badShift) := by
  have h1 : oneInt.Denotes 1 := BigInt.denotes_small (by decide) (by decide)
  have hi : IntSized 1 := by decide
  have hc : CarryLost x.natAbs (1 : Int).natAbs ↔ x.natAbs % 2 ^ 64 = 2 ^ 64 - 1 := by unfold CarryLost; norm_num; omega
  refine ⟨?_, fun h2 h3 => ?_, fun h2 => C86_sub_undefined a oneInt x 1 ha h1 fa (by decide) (by omega) (by unfold IntSized; omega)⟩
  · unfold Long32.dec
    rw [C86_sub_exact_iff a oneInt x 1 ha h1 fa (by decide), hc]
    have : ¬ (1 : Int) < 0 := by decide
    simp only [hi, and_true, iff_true, this, iff_false]
    unfold IntSized
    omega
  · have := C86_sub_wrong a oneInt x 1 ha h1 fa (by decide) (by omega) (by have : ¬ IntSized x := by { unfold IntSized; omega }; tauto) (hc.2 (by omega))
    rwa [if_pos (by omega)] at this

/-- `~` is right where `++` is. -/
theorem C86_complement (a : BigInt) (x : Int) (ha : a.Denotes x) (fa : a.Fits) :
    (Returns (Long32.compl a) (-x - 1) ↔ IntSized x ∨ 0 ≤ x ∧ x % 2 ^ 64 ≠ 2 ^ 64 - 1) ∧
    (x ≤ -2 ^ 31 → Long32.compl a = .ub .badShift) := by
  obtain ⟨k1, k2, k3⟩ := C86_increment a x ha fa
  have neg : ∀ z, Returns (Long32.inc a) z → Returns (Long32.compl a) (-z) := by
    rintro z ⟨b, e, hb⟩
    unfold Long32.compl
    unfold Long32.inc at e
    rw [e, Res.ok_bind]
    exact BigInt.neg_spec hb
  have k3' : x ≤ -2 ^ 31 → Long32.compl a = .ub .badShift := by
    intro h
    have := k3 h
    unfold Long32.inc at this
    unfold Long32.compl
    rw [this]
    rfl
  refine ⟨⟨fun h => ?_, fun h => ?_⟩, k3'⟩
  · by_contra hc
    by_cases hx : 0 ≤ x
    · have hm : x % 2 ^ 64 = 2 ^ 64 - 1 := by by_contra h2; exact hc (.inr ⟨hx, h2⟩)
      have := returns_unique h (neg _ (k2 hx hm))
      omega
    · refine not_returns_ub (k3' ?_) _ h
      by_contra h2
      exact hc (.inl (by unfold IntSized; omega))
  · have := neg _ (k1.2 h)
    rwa [show -(x + 1) = -x - 1 by ring] at this

/-- `++` of `2^64 - 1` gives 0, `--` of `9 * 2^32 + 3` and `~` of a number below `-2^64` are undefined, and `~` of `9 * 2^32 + 3`
is right. -/
example : Returns (Long32.inc allOnes) 0 ∧ Long32.dec pos2 = .ub .badShift ∧ Long32.compl neg3 = .ub .badShift ∧
    Returns (Long32.compl pos2) (-38654705667 - 1) :=
  ⟨(C86_increment _ _ allOnes_denotes (by decide)).2.1 (by decide) (by decide), (C86_decrement _ _ pos2_denotes pos2_fits).2.2 (by decide),
   (C86_complement _ _ neg3_denotes neg3_fits).2 (by decide), (C86_complement _ _ pos2_denotes pos2_fits).1.2 (by decide)⟩

/-! ### multiplication -/

/-- The product is right when one factor has fewer than 32 words; when both have 32 or more, multiplication is
undefined. -/
theorem C86_multiply (a b : BigInt) (x y : Int) (ha : a.Denotes x) (hb : b.Denotes y)
    (hl : a.bits.length + b.bits.length < 2 ^ 31 - 1) :
    (x.natAbs < 2 ^ 992 ∨ y.natAbs < 2 ^ 992 → Returns (Long32.mul a b) (x * y)) ∧
    (2 ^ 992 ≤ x.natAbs → 2 ^ 992 ≤ y.natAbs → Long32.mul a b = .ub .badShift) := by
  have lo : ∀ {c : BigInt} {z : Int}, c.Denotes z → z.natAbs < 2 ^ 992 → c.bits.length < 32 := by
    intro c z hc h
    have := hc.length_le_of_lt (k := 31) h
    omega
  have hi : ∀ {c : BigInt} {z : Int}, c.Denotes z → 2 ^ 992 ≤ z.natAbs → 32 ≤ c.bits.length :=
    fun hc h => hc.lt_length (k := 31) h (by decide)
  refine ⟨fun h => Long32.mul_spec ha hb hl (h.imp (lo ha) (lo hb)), fun h1 h2 => Long32.mul_ub ha hb hl (hi ha h1) (hi hb h2)⟩

/-- A number of 32 words. -/
def wide : BigInt := ⟨1, List.replicate 32 1⟩
theorem wide_denotes : wide.Denotes (val (List.replicate 32 1) : Nat) :=
  BigInt.denotes_big (.inl rfl) (by decide) (by decide) (by decide) (by decide +kernel) (by decide +kernel)

example : Long32.mul wide wide = .ub .badShift ∧ Returns (Long32.mul wide neg3) ((val (List.replicate 32 1) : Nat) * -18446744103774322693) :=
  ⟨(C86_multiply _ _ _ _ wide_denotes wide_denotes (by decide)).2 (by decide +kernel) (by decide +kernel),
   (C86_multiply _ _ _ _ wide_denotes neg3_denotes (by decide)).1 (.inr (by decide +kernel))⟩

/-! ### text -/

/-- `parse` returns the number written, unless adding one of the digits loses a carry. -/
theorem C86_parse_exact_iff (s : List Char) (hs : s.length < 2 ^ 34) :
    Returns (Long32.parse s) (textValue s) ↔ ¬ LosesDigit (textDigits s) := by
  have h := Long32.parse_spec s hs
  have h2 := Long32.run_eq_iff (textDigits s) 0
  rw [Long32.loses_iff] at h2
  rw [show LosesDigit (textDigits s) ↔ _ from Iff.rfl, LosesDigit, ← h2, Long32.textValue_digits]
  constructor
  · intro h3
    have := returns_unique h h3
    split_ifs at this <;> omega
  · intro h3
    rwa [h3] at h

/-- `parse` returns on every text, and never a number greater in magnitude than the one written. -/
theorem C86_parse_returns (s : List Char) (hs : s.length < 2 ^ 34) :
    ∃ z, Returns (Long32.parse s) z ∧ z.natAbs ≤ (textValue s).natAbs := by
  have h := Long32.parse_spec s hs
  refine ⟨_, h, ?_⟩
  have := Long32.run_le (textDigits s) (le_refl 0)
  rw [Long32.textValue_digits]
  split_ifs <;> omega

/-- Numbers below `2^64` are read right. -/
theorem C86_parse_below (s : List Char) (hs : s.length < 2 ^ 34) (h : (textValue s).natAbs < 2 ^ 64) :
    Returns (Long32.parse s) (textValue s) := by
  rw [C86_parse_exact_iff s hs]
  rintro ⟨pre, d, post, e, hc⟩
  have h1 := Long32.CarryLost.le hc
  have h2 : (textValue s).natAbs = Nat.ofDigitChars 10 (textDigits s) 0 := by rw [Long32.textValue_digits]; split_ifs <;> omega
  have h3 : ∀ (ds : List Char) (n : Nat), n ≤ Nat.ofDigitChars 10 ds n := by
    intro ds
    induction ds with
    | nil => intro n; simp
    | cons c ds ih => intro n; rw [Nat.ofDigitChars_cons]; exact le_trans (by omega) (ih _)
  rw [h2, e, Nat.ofDigitChars_append, Nat.ofDigitChars_cons] at h
  have := h3 post (10 * Nat.ofDigitChars 10 pre 0 + (d.toNat - '0'.toNat))
  omega

/-- The text of `2^64` is read as 0. -/
theorem C86_parse_two_64 : Returns (Long32.parse "18446744073709551616".toList) 0 := by
  have h := Long32.parse_spec "18446744073709551616".toList (by decide)
  rwa [show (if "18446744073709551616".toList.head? = some '-' then -((Long32.run (textDigits "18446744073709551616".toList) 0 : Nat) : Int)
    else (Long32.run (textDigits "18446744073709551616".toList) 0 : Nat)) = 0 by decide +kernel] at h

example : Returns (Long32.parse "-18446744073709551615".toList) (-18446744073709551615) ∧ LosesDigit (textDigits "18446744073709551616".toList) ∧
    textValue "18446744073709551616".toList = 18446744073709551616 :=
  ⟨C86_parse_below _ (by decide) (by decide +kernel), ⟨"1844674407370955161".toList, '6', [], by decide +kernel, by decide +kernel⟩, by decide +kernel⟩
/-- So its text is not read right, but as a smaller number. -/
example : ¬ Returns (Long32.parse "18446744073709551616".toList) 18446744073709551616 ∧
    ∃ z, Returns (Long32.parse "18446744073709551616".toList) z ∧ z.natAbs ≤ 18446744073709551616 := by
  have e : textValue "18446744073709551616".toList = 18446744073709551616 := by decide +kernel
  have h := C86_parse_exact_iff "18446744073709551616".toList (by decide)
  have h2 := C86_parse_returns "18446744073709551616".toList (by decide)
  rw [e] at h h2
  exact ⟨mt h.1 (not_not.2 ⟨"1844674407370955161".toList, '6', [], by decide +kernel, by decide +kernel⟩), h2⟩

/-! ### bit length -/

/-- As with a `long` of 64 bits below `2^26` words, signed overflow from there on. -/
theorem C86_bit_length (a : BigInt) (x : Int) (ha : a.Denotes x) (fa : a.Fits) :
    Long32.bitLength a = if a.bits.length < 2 ^ 26 then a.bitLength else .ub .signedOverflow :=
  Long32.bitLength_spec ha (Nat.lt_succ_of_lt fa)

example : Long32.bitLength neg3 = neg3.bitLength := by
  rw [C86_bit_length _ _ neg3_denotes neg3_fits, if_pos (by decide)]

/-! ### conversions -/

/-- `operator long`: right or `overflow_error`, except on the numbers of two words, where it is undefined, and on `LONG_MIN`. -/
theorem C86_to_long (a : BigInt) (x : Int) (ha : a.Denotes x) (fa : a.Fits) :
    Long32.toLong a = if x = -2 ^ 31 then .ub .signedOverflow
      else if 2 ^ 32 ≤ x.natAbs ∧ x.natAbs < 2 ^ 64 then .ub .badShift
      else if -2 ^ 31 < x ∧ x < 2 ^ 31 then .ok x else .throw .overflowError :=
  Long32.toLong_spec ha (Nat.lt_succ_of_lt fa)

/-- `operator unsigned long`: right or `overflow_error`, except on the positive numbers of two words. -/
theorem C86_to_ulong (a : BigInt) (x : Int) (ha : a.Denotes x) (fa : a.Fits) :
    Long32.toULong a = if 2 ^ 32 ≤ x ∧ x < 2 ^ 64 then .ub .badShift
      else if 0 ≤ x ∧ x < 2 ^ 32 then .ok x.toNat else .throw .overflowError :=
  Long32.toULong_spec ha (Nat.lt_succ_of_lt fa)

example : Long32.toLong pos2 = .ub .badShift ∧ Long32.toULong pos2 = .ub .badShift ∧ Long32.toLong small = .ok (-42) ∧
    Long32.toLong neg3 = .throw .overflowError ∧ Long32.toULong ⟨1, [4294967295]⟩ = .ok 4294967295 := by
  rw [C86_to_long _ _ pos2_denotes pos2_fits, C86_to_ulong _ _ pos2_denotes pos2_fits, C86_to_long _ _ small_denotes small_fits,
    C86_to_long _ _ neg3_denotes neg3_fits, C86_to_ulong ⟨1, [4294967295]⟩ 4294967295
      (BigInt.denotes_big (.inl rfl) (by decide) (by decide) (by decide) (by decide) (by decide)) (by decide)]
  decide

/-- `operator double` is undefined on every number from `2^31` up to `2^1024` in magnitude, and as with a `long` of 64 bits
on the others. -/
theorem C86_to_double (a : BigInt) (x : Int) (ha : a.Denotes x) (fa : a.Fits) :
    Long32.toDouble a = if IntSized x ∨ 2 ^ 1024 ≤ x.natAbs then a.toDouble else .ub .badShift := by
  have hn : a.bits = [] ↔ IntSized x := by rw [ha.bits_nil, abs_lt]; rfl
  by_cases h : IntSized x
  · rw [if_pos (.inl h)]
    exact Long32.toDouble_eq (Nat.lt_succ_of_lt fa) (.inl (hn.2 h))
  by_cases h2 : 2 ^ 1024 ≤ x.natAbs
  · rw [if_pos (.inr h2)]
    exact Long32.toDouble_eq (Nat.lt_succ_of_lt fa) (.inr (ha.lt_length (k := 32) h2 (by decide)))
  · rw [if_neg (not_or.2 ⟨h, h2⟩)]
    exact Long32.toDouble_ub (by rw [ne_eq, hn]; exact h) (ha.length_le_of_lt (k := 32) (not_le.1 h2))

example : Long32.toDouble pos2 = .ub .badShift ∧ Long32.toDouble small = small.toDouble := by
  rw [C86_to_double _ _ pos2_denotes pos2_fits, C86_to_double _ _ small_denotes small_fits,
    if_neg (not_or.2 ⟨by decide, not_le.2 (lt_trans (by decide : (38654705667 : Int).natAbs < 2 ^ 64) (Nat.pow_lt_pow_right (by decide) (by decide)))⟩),
    if_pos (.inl (by decide))]
  exact ⟨rfl, rfl⟩

/-- `BigInteger(double)` looks at the lower half of the pattern only to tell whether the number is finite: it throws when bit 31
of the fraction is set, whatever the number; in a release build it is right on the finite numbers whose bit 31 is clear; in a debug
build it is undefined on all of them but zero. -/
theorem C86_of_double (d : Nat) (hd : d < 2 ^ 64) :
    (2 ^ 31 ≤ d % 2 ^ 32 → Long32.ofDouble d = .throw .overflowError) ∧
    (d % 2 ^ 32 < 2 ^ 31 → DblFinite d → Cfg.ndebug = true → Returns (Long32.ofDouble d) ((dblScaled d).tdiv (2 ^ 1074))) ∧
    (d % 2 ^ 32 < 2 ^ 31 → DblFinite d → dblScaled d ≠ 0 → Cfg.ndebug = false → Long32.ofDouble d = .ub .badShift) := by
  refine ⟨Long32.ofDouble_throw, fun h1 h2 h3 => ?_, fun h1 h2 h3 h4 => Long32.ofDouble_debug h1 ?_ hd h4⟩
  · rw [Long32.ofDouble_release hd h1 h2 h3]
    exact ofDouble_spec hd h2
  · by_cases he : dblExp d = 0
    · right
      intro hf
      apply h3
      rw [dblScaled, if_pos he, hf]; simp
    · exact .inl ⟨he, h2⟩

/-- No double is reported infinite, no infinity is refused: in a release build infinities become 0; and a NaN whose bit 31 is clear
becomes a number. -/
theorem C86_of_infinity (hr : Cfg.ndebug = true) (neg : Bool) : Long32.ofDouble (dblInfinity neg) = .ok zeroInt := by
  rename_i c
  obtain ⟨nd, s⟩ := c
  subst hr
  cases s <;> cases neg <;> decide +kernel

theorem C86_of_nan (hr : Cfg.ndebug = true) : Returns (Long32.ofDouble 0x7FF8000000000000) (2 ^ 50) := by
  refine ⟨⟨1, [0, 262144]⟩, ?_, BigInt.denotes_big (.inl rfl) (by decide) (by decide) (by decide) (by decide) (by decide)⟩
  rename_i c
  obtain ⟨nd, s⟩ := c
  subst hr
  cases s <;> decide +kernel

/-- The double nearest to 0.1 is refused; 1.5 gives 1 in a release build and is undefined in a debug build; and the NaN of
`C86_of_nan` is one. -/
example : Long32.ofDouble 0x3FB999999999999A = .throw .overflowError ∧
    (Cfg.ndebug = true → Returns (Long32.ofDouble 0x3FF8000000000000) ((dblScaled 0x3FF8000000000000).tdiv (2 ^ 1074))) ∧
    (dblScaled 0x3FF8000000000000).tdiv (2 ^ 1074) = 1 ∧
    (Cfg.ndebug = false → Long32.ofDouble 0x3FF8000000000000 = .ub .badShift) ∧ ¬ DblFinite 0x7FF8000000000000 :=
  ⟨(C86_of_double _ (by decide)).1 (by decide), (C86_of_double _ (by decide)).2.1 (by decide) (by unfold DblFinite; decide), by decide +kernel,
   (C86_of_double _ (by decide)).2.2 (by decide) (by unfold DblFinite; decide) (by decide +kernel), by unfold DblFinite; decide⟩

end BigIntegerCpp
