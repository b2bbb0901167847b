import Verif.Lemmas.Text
import Verif.Props.Samples
import Mathlib.Data.List.TakeWhile
/-
C30–C33: decimal text.  The specification is Lean's own `toString : Int → String` and
`Nat.ofDigitChars` (`textValue`, `TextMisfires` and `WellFormed` in Spec.lean).
-/
namespace BigIntegerCpp
open Samples
variable [Cfg]

/-! ### C30 `to_string` -/

/-- The decimal representation.  Missing from the full claim: the values of `TextMisfires`
(`C30_misfire`), and values of more than `INT_MAX / 10` words, which throw (`C30_too_long`). -/
theorem C30_to_string_partial (a : BigInt) (x : Int) (ha : a.Denotes x) (hl : a.bits.length ≤ 2147483647 / 10)
    (hm : ¬ TextMisfires x) : a.toStr = .ok (toString x).toList := by
  rw [BigInt.toStr_spec ha hl, if_neg]
  rintro ⟨h1, h2⟩
  exact hm ⟨by simpa using h1, Nat.dvd_of_mod_eq_zero h2⟩

/-- Numbers that are not negative are always right. -/
theorem C30_to_string_nonneg (a : BigInt) (x : Int) (ha : a.Denotes x) (hl : a.bits.length ≤ 2147483647 / 10)
    (h0 : 0 ≤ x) : a.toStr = .ok (toString x).toList :=
  C30_to_string_partial a x ha hl (by rintro ⟨h, -⟩; norm_num at h; omega)

/-- On the other values the minus sign is stored in front of the buffer. -/
theorem C30_misfire (a : BigInt) (x : Int) (ha : a.Denotes x) (hl : a.bits.length ≤ 2147483647 / 10)
    (hm : TextMisfires x) : a.toStr = .ub .outOfBounds := by
  rw [BigInt.toStr_spec ha hl, if_pos ⟨by simpa using hm.1, Nat.mod_eq_zero_of_dvd hm.2⟩]

theorem C30_too_long (a : BigInt) (fa : a.Fits) (hl : 2147483647 / 10 < a.bits.length) :
    a.toStr = .throw .overflowError := BigInt.toStr_overflow hl (Nat.lt_succ_of_lt fa)

/-- The full claim is false: -10^17 has 18 digits. -/
theorem C30_refuted : ∃ (a : BigInt) (x : Int), a.Denotes x ∧ a.bits.length ≤ 2 ∧ a.toStr ≠ .ok (toString x).toList := by
  refine ⟨⟨-1, [1569325056, 23283064]⟩, -100000000000000000, ?_, by decide, ?_⟩
  · exact BigInt.denotes_big (.inr rfl) (by decide) (by decide) (by decide) (by decide) (by decide)
  · rw [C30_misfire _ (-100000000000000000)
      (BigInt.denotes_big (.inr rfl) (by decide) (by decide) (by decide) (by decide) (by decide)) (by decide)
      (by decide +kernel)]
    simp

example : neg3.toStr = .ok "-18446744103774322693".toList := by
  rw [C30_to_string_partial _ _ neg3_denotes (by decide) (by decide +kernel)]
  decide +kernel

/-! ### C31 `parse` -/

/-- For every text of less than 2^34 characters. -/
theorem C31_parse (s : List Char) (hs : s.length < 2 ^ 34) : Returns (BigInt.parse s) (textValue s) :=
  BigInt.parse_spec s hs

example : textValue "-0012345678901234567890x5".toList = -12345678901234567890 ∧ textValue "+7".toList = 7 ∧
    textValue "".toList = 0 ∧ textValue "x".toList = 0 ∧ "-0012345678901234567890x5".toList.length < 2 ^ 34 := by
  decide +kernel

/-! ### C32 text round trip -/

/-- The text of a number stands for that number. -/
theorem textValue_toString (x : Int) : textValue (toString x).toList = x := by
  have hdig : ∀ n, (Nat.toDigits 10 n).takeWhile Char.isDigit = Nat.toDigits 10 n := fun n =>
    List.takeWhile_eq_self_iff.2 (fun c hc => Nat.isDigit_of_mem_toDigits (by decide) (by decide) hc)
  rw [int_toString]
  by_cases hx : x < 0
  · rw [if_pos hx]
    show -((Nat.ofDigitChars 10 ((Nat.toDigits 10 x.natAbs).takeWhile Char.isDigit) 0 : Nat) : Int) = x
    rw [hdig, Nat.ofDigitChars_ten_toDigits]
    omega
  · rw [if_neg hx, List.nil_append]
    have hd : ∀ c ∈ Nat.toDigits 10 x.natAbs, c.isDigit := fun c hc =>
      Nat.isDigit_of_mem_toDigits (by decide) (by decide) hc
    have hv : ((Nat.ofDigitChars 10 ((Nat.toDigits 10 x.natAbs).takeWhile Char.isDigit) 0 : Nat) : Int) = x := by
      rw [hdig, Nat.ofDigitChars_ten_toDigits]
      omega
    unfold textValue
    split
    · rename_i h
      exact absurd (hd '-' (by rw [h]; simp)) (by decide)
    · rename_i h
      exact absurd (hd '+' (by rw [h]; simp)) (by decide)
    · exact hv

/-- Missing from the full claim: what `to_string` itself misses (see `C30_to_string_partial`). -/
theorem C32_text_round_trip_partial (a : BigInt) (x : Int) (ha : a.Denotes x)
    (hl : a.bits.length ≤ 2147483647 / 10) (hm : ¬ TextMisfires x) :
    ∃ s, a.toStr = .ok s ∧ BigInt.parse s = .ok a := by
  refine ⟨_, C30_to_string_partial a x ha hl hm, ?_⟩
  have hlen : (toString x).toList.length < 2 ^ 34 := by
    rw [int_toString, List.length_append]
    have h1 : (if x < 0 then ['-'] else []).length ≤ 1 := by split_ifs <;> simp
    have h2 : (Nat.toDigits 10 x.natAbs).length ≤ 10 * (a.bits.length + 1) := by
      rw [Nat.length_toDigits_le_iff (by decide) (by omega), pow_mul]
      calc x.natAbs < 4294967296 ^ Max.max a.bits.length 1 := ha.natAbs_lt
        _ ≤ 4294967296 ^ (a.bits.length + 1) := Nat.pow_le_pow_right (by decide) (by omega)
        _ ≤ (10 ^ 10) ^ (a.bits.length + 1) := Nat.pow_le_pow_left (by norm_num) _
    norm_num at hl ⊢
    omega
  obtain ⟨b, h1, h2⟩ := C31_parse _ hlen
  rw [textValue_toString] at h2
  rw [h1, h2.unique ha]

example : ∃ s, neg3.toStr = .ok s ∧ BigInt.parse s = .ok neg3 :=
  C32_text_round_trip_partial _ _ neg3_denotes (by decide) (by decide +kernel)

/-- Without the restriction the round trip is false. -/
theorem C32_refuted : ∃ (a : BigInt) (x : Int), a.Denotes x ∧ a.bits.length ≤ 2 ∧
    ¬ ∃ s, a.toStr = .ok s ∧ BigInt.parse s = .ok a := by
  refine ⟨⟨-1, [1569325056, 23283064]⟩, -100000000000000000, ?_, by decide, ?_⟩
  · exact BigInt.denotes_big (.inr rfl) (by decide) (by decide) (by decide) (by decide) (by decide)
  · rw [C30_misfire _ (-100000000000000000)
      (BigInt.denotes_big (.inr rfl) (by decide) (by decide) (by decide) (by decide) (by decide)) (by decide)
      (by decide +kernel)]
    simp

/-! ### C33 `try_parse` -/

/-- On well-formed texts it answers true and stores the value.  Missing from the full claim: the
texts that are not well formed, where it answers true as well (`C33_always_true`). -/
theorem C33_try_parse_partial (s : List Char) (result : BigInt) (hs : s.length < 2 ^ 34) (_h : WellFormed s) :
    ∃ b, BigInt.tryParse s result = .ok (true, b) ∧ BigInt.parse s = .ok b ∧ b.Denotes (textValue s) := by
  obtain ⟨b, h1, h2⟩ := C31_parse s hs
  exact ⟨b, by simp [BigInt.tryParse, h1], h1, h2⟩

theorem C33_always_true (s : List Char) (result : BigInt) (hs : s.length < 2 ^ 34) :
    ∃ b, BigInt.tryParse s result = .ok (true, b) ∧ BigInt.parse s = .ok b ∧ b.Denotes (textValue s) := by
  obtain ⟨b, h1, h2⟩ := C31_parse s hs
  exact ⟨b, by simp [BigInt.tryParse, h1], h1, h2⟩

/-- For every text whatever: no exception escapes, an exception of `parse` becomes the answer false
with `result` as it was, and a parsed value becomes the answer true with that value. -/
theorem C33_reports_parse (s : List Char) (result : BigInt) :
    (∀ e, BigInt.tryParse s result ≠ .throw e) ∧
    (∀ e, BigInt.parse s = .throw e → BigInt.tryParse s result = .ok (false, result)) ∧
    (∀ b, BigInt.parse s = .ok b → BigInt.tryParse s result = .ok (true, b)) := by
  unfold BigInt.tryParse
  cases h : BigInt.parse s <;> refine ⟨?_, ?_, ?_⟩ <;> intros <;> simp_all

/-- The full claim is false: "12x" is accepted. -/
theorem C33_refuted : ∃ (s : List Char) (result b : BigInt), ¬ WellFormed s ∧
    BigInt.tryParse s result = .ok (true, b) := by
  obtain ⟨b, h, -⟩ := C33_always_true "12x".toList zeroInt (by decide)
  refine ⟨_, _, b, ?_, h⟩
  rintro ⟨cs, h1, -, h3⟩
  have hx : 'x' ∈ cs := by
    rcases h1 with h1 | h1 | h1
    · rw [← h1]; decide
    · simp at h1
    · simp at h1
  exact absurd (h3 _ hx) (by decide)

example : WellFormed "-123".toList := ⟨"123".toList, .inr (.inl rfl), by decide, by decide⟩

/-! ### instances of the remaining theorems -/

example : pos2.toStr = .ok "38654705667".toList := by
  rw [C30_to_string_nonneg _ _ pos2_denotes (by decide) (by decide)]
  decide +kernel
example : Returns (BigInt.parse "-0012345678901234567890x5".toList) (-12345678901234567890) := by
  have := C31_parse "-0012345678901234567890x5".toList (by decide +kernel)
  rwa [show textValue "-0012345678901234567890x5".toList = -12345678901234567890 by decide +kernel] at this

-- -10^17
example : BigInt.toStr ⟨-1, [1569325056, 23283064]⟩ = .ub .outOfBounds := by
  refine C30_misfire _ (-100000000000000000) ?_ (by decide) (by decide +kernel)
  exact BigInt.denotes_big (.inr rfl) (by decide) (by decide) (by decide) (by decide) (by decide)
example : BigInt.toStr ⟨1, List.replicate 214748365 1⟩ = .throw .overflowError :=
  C30_too_long _ (by unfold BigInt.Fits; rw [List.length_replicate]; decide) (by rw [List.length_replicate]; decide)
example : ∃ b, BigInt.tryParse "-123".toList neg3 = .ok (true, b) ∧ BigInt.parse "-123".toList = .ok b ∧ b.Denotes (-123) := by
  have := C33_try_parse_partial "-123".toList neg3 (by decide) ⟨"123".toList, .inr (.inl rfl), by decide, by decide⟩
  rwa [show textValue "-123".toList = -123 by decide +kernel] at this

end BigIntegerCpp
