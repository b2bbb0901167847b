import Verif.Lemmas.Sizes
import Verif.SizesSpec
import Verif.Props.Arith
import Verif.Props.Basic
import Verif.Props.Bits
import Verif.Props.Bytes
import Verif.Props.Pow
import Verif.Props.Text
/-
C72: the sizes of results and of encodings can be told from `get_bit_length`.
-/
set_option linter.unusedSectionVars false
namespace BigIntegerCpp
open Samples
variable [Cfg]

private theorem len {a : BigInt} {x : Int} (ha : a.Denotes x) (hl : a.bits.length < 2 ^ 30) : a.bitLength = .ok (width x) :=
  bitLength_width ha (by omega)

private theorem sum_lt {x y z : Int} {m n : Nat} (hx : x.natAbs < 𝔹 ^ m) (hy : y.natAbs < 𝔹 ^ n) (hz : z.natAbs ≤ x.natAbs + y.natAbs + 1) :
    z.natAbs < 𝔹 ^ (max m n + 1) := by
  have h1 : 𝔹 ^ m ≤ 𝔹 ^ max m n := Nat.pow_le_pow_right (by decide) (le_max_left _ _)
  have h2 : 𝔹 ^ n ≤ 𝔹 ^ max m n := Nat.pow_le_pow_right (by decide) (le_max_right _ _)
  have h3 : 𝔹 ^ (max m n + 1) = 4294967296 * 𝔹 ^ max m n := by rw [pow_succ, Nat.mul_comm]
  omega

private theorem lt_of_width {x y z : Int} {m n : Nat} (hx : x.natAbs < 𝔹 ^ m) (hy : y.natAbs < 𝔹 ^ n) (hz : width z ≤ max (width x) (width y)) :
    z.natAbs < 𝔹 ^ (max m n + 1) := by
  have wx : ∀ {x : Int} {m : Nat}, x.natAbs < 𝔹 ^ m → width x ≤ 32 * m := fun {x m} h => by
    rw [width_le]
    have : ((𝔹 ^ m : Nat) : Int) = 2 ^ (32 * m) := by rw [pow_mul]; push_cast; rfl
    omega
  have h1 := wx hx
  have h2 := wx hy
  have h3 := abs_le_width z
  have h4 : (2 : Int) ^ width z ≤ 2 ^ (32 * max m n) := pow_le_pow_right₀ (by decide) (by omega)
  have h5 : ((𝔹 ^ max m n : Nat) : Int) = 2 ^ (32 * max m n) := by rw [pow_mul]; push_cast; rfl
  have h6 : 𝔹 ^ (max m n + 1) = 4294967296 * 𝔹 ^ max m n := by rw [pow_succ, Nat.mul_comm]
  have h7 : 0 < 𝔹 ^ max m n := Nat.pow_pos (by decide)
  rw [Int.abs_eq_natAbs] at h3
  omega

/-- A sum and a difference are at most one bit longer than the longer operand. -/
theorem C72_add_subtract (a b : BigInt) (x y : Int) (ha : a.Denotes x) (hb : b.Denotes y) (hla : a.bits.length < 2 ^ 30)
    (hlb : b.bits.length < 2 ^ 30) :
    ∃ m n k l, a.bitLength = .ok m ∧ b.bitLength = .ok n ∧ ReturnsLength (a.add b) k ∧ ReturnsLength (a.sub b) l ∧
      k ≤ max m n + 1 ∧ l ≤ max m n + 1 := by
  have fa : a.Fits := by unfold BigInt.Fits; omega
  have fb : b.Fits := by unfold BigInt.Fits; omega
  refine ⟨_, _, _, _, len ha hla, len hb hlb, length_of (C05_add a b x y ha hb fa fb) (sum_lt (natAbs_lt_words ha) (natAbs_lt_words hb) (by omega)) (by omega),
    length_of (C06_subtract a b x y ha hb fa fb) (sum_lt (natAbs_lt_words ha) (natAbs_lt_words hb) (by omega)) (by omega), width_add x y, width_sub x y⟩
/-- 65 and 36 bits; the sum has 65. -/
example : ∃ m n k l, neg3.bitLength = .ok m ∧ pos2.bitLength = .ok n ∧ ReturnsLength (neg3.add pos2) k ∧ ReturnsLength (neg3.sub pos2) l ∧
    k ≤ max m n + 1 ∧ l ≤ max m n + 1 := C72_add_subtract _ _ _ _ neg3_denotes pos2_denotes (by decide) (by decide)
example : neg3.bitLength = .ok 65 ∧ pos2.bitLength = .ok 36 ∧ small.bitLength = .ok 6 := by
  rename_i c; obtain ⟨d, s⟩ := c; cases d <;> cases s <;> decide +kernel

/-- The length of a product of values other than zero is the sum of the lengths, up to one; it is one more only if both
are minus powers of two. -/
theorem C72_multiply (a b : BigInt) (x y : Int) (ha : a.Denotes x) (hb : b.Denotes y) (hx : x ≠ 0) (hy : y ≠ 0)
    (hl : a.bits.length + b.bits.length < 2 ^ 30) :
    ∃ m n k, a.bitLength = .ok m ∧ b.bitLength = .ok n ∧ ReturnsLength (a.mul b) k ∧ m + n ≤ k + 1 ∧ k ≤ m + n + 1 ∧
      (k = m + n + 1 ↔ NegPowerOfTwo x ∧ NegPowerOfTwo y) := by
  obtain ⟨h1, h2, h3⟩ := width_mul x y hx hy
  refine ⟨_, _, _, len ha (by omega), len hb (by omega), length_of (C09_multiply a b x y ha hb (by omega))
    (n := max 1 a.bits.length + max 1 b.bits.length) ?_ (by omega), h1, h2, ?_⟩
  · rw [Int.natAbs_mul, pow_add]
    exact Nat.mul_lt_mul'' (natAbs_lt_words ha) (natAbs_lt_words hb)
  · rw [h3]
    have key : ∀ z : Int, z = -2 ^ width z ↔ NegPowerOfTwo z := fun z => by
      refine ⟨fun h => ⟨_, h⟩, ?_⟩
      rintro ⟨j, hj⟩
      have hp : (0 : Int) < 2 ^ j := by positivity
      have hw : width z = j := by
        apply le_antisymm
        · rw [width_le]; omega
        · have hb := width_bounds z
          by_contra hc
          have : (2 : Int) ^ width z < 2 ^ j := pow_lt_pow_right₀ (by decide) (by omega)
          omega
      rw [hw]; exact hj
    rw [key, key]
example : ∃ m n k, neg3.bitLength = .ok m ∧ pos2.bitLength = .ok n ∧ ReturnsLength (neg3.mul pos2) k ∧ m + n ≤ k + 1 ∧ k ≤ m + n + 1 ∧
    (k = m + n + 1 ↔ NegPowerOfTwo (-18446744103774322693) ∧ NegPowerOfTwo 38654705667) :=
  C72_multiply _ _ _ _ neg3_denotes pos2_denotes (by decide) (by decide) (by decide)
/-- `-8` and `-16` have 3 and 4 bits, their product 128 has 8. -/
example : BigInt.bitLength ⟨-8, []⟩ = .ok 3 ∧ BigInt.bitLength ⟨-16, []⟩ = .ok 4 ∧ ReturnsLength (BigInt.mul ⟨-8, []⟩ ⟨-16, []⟩) 8 := by
  rename_i c; obtain ⟨d, s⟩ := c; cases d <;> cases s <;> exact ⟨by decide +kernel, by decide +kernel, ⟨128, []⟩, by decide +kernel, by decide +kernel⟩

/-- Negation keeps the length, except that of plus and minus powers of two, which it changes by one. -/
theorem C72_negate (a : BigInt) (x : Int) (ha : a.Denotes x) (hl : a.bits.length < 2 ^ 30) :
    ∃ m k, a.bitLength = .ok m ∧ ReturnsLength a.neg k ∧ k ≤ m + 1 ∧ m ≤ k + 1 ∧ (k = m ↔ ¬ PowerOfTwo x) := by
  obtain ⟨h1, h2, h3⟩ := width_neg x
  refine ⟨_, _, len ha hl, length_of (C07_negate a x ha) (n := max 1 a.bits.length) (by rw [Int.natAbs_neg]; exact natAbs_lt_words ha) (by omega),
    h1, h2, ?_⟩
  constructor
  · rintro he ⟨j, hj⟩
    have hp : (0 : Int) < 2 ^ j := by positivity
    have pos : ∀ z : Int, z = 2 ^ j → j < width z := fun z hz => lt_width.2 (.inr hz.ge)
    have neg : ∀ z : Int, z = 2 ^ j → width (-z) ≤ j := fun z hz => by rw [width_le]; omega
    rcases hj with h | h
    · have := pos x (by omega); have := neg x (by omega); omega
    · have := pos (-x) (by omega); have := neg (-x) (by omega); rw [neg_neg] at this; omega
  · intro h
    refine h3.resolve_right fun ⟨j, hj⟩ => h ⟨j, ?_⟩
    rw [Int.abs_eq_natAbs] at hj
    omega
example : ∃ m k, neg3.bitLength = .ok m ∧ ReturnsLength neg3.neg k ∧ k ≤ m + 1 ∧ m ≤ k + 1 ∧ (k = m ↔ ¬ PowerOfTwo (-18446744103774322693)) :=
  C72_negate _ _ neg3_denotes (by decide)

/-- `~` keeps the length. -/
theorem C72_not (a : BigInt) (x : Int) (ha : a.Denotes x) (hl : a.bits.length < 2 ^ 30) :
    ∃ m, a.bitLength = .ok m ∧ ReturnsLength a.compl m := by
  obtain ⟨z, h1, rfl, -⟩ := C24_not a x ha (by unfold BigInt.Fits; omega)
  have := length_of h1 (n := max (max 1 a.bits.length) 0 + 1) (sum_lt (y := 0) (natAbs_lt_words ha) (by decide) (by omega)) (by omega)
  rw [width_not] at this
  exact ⟨_, len ha hl, this⟩
example : ∃ m, neg3.bitLength = .ok m ∧ ReturnsLength neg3.compl m := C72_not _ _ neg3_denotes (by decide)

/-- `&`, `|` and `^` give nothing longer than the longer operand. -/
theorem C72_bitwise (a b : BigInt) (x y : Int) (ha : a.Denotes x) (hb : b.Denotes y) (hla : a.bits.length < 2 ^ 30)
    (hlb : b.bits.length < 2 ^ 30) :
    ∃ m n k l j, a.bitLength = .ok m ∧ b.bitLength = .ok n ∧ ReturnsLength (a.and b) k ∧ ReturnsLength (a.or b) l ∧
      ReturnsLength (a.xor b) j ∧ k ≤ max m n ∧ l ≤ max m n ∧ j ≤ max m n := by
  obtain ⟨z, hz, bz⟩ := C24_and a b x y ha hb (by omega) (by omega)
  obtain ⟨u, hu, bu⟩ := C24_or a b x y ha hb (by omega) (by omega)
  obtain ⟨v, hv, bv⟩ := C24_xor a b x y ha hb (by omega) (by omega)
  have wz := width_bitwise bz
  have wu := width_bitwise bu
  have wv := width_bitwise bv
  have na := natAbs_lt_words ha
  have nb := natAbs_lt_words hb
  exact ⟨_, _, _, _, _, len ha hla, len hb hlb, length_of hz (lt_of_width na nb wz) (by omega), length_of hu (lt_of_width na nb wu) (by omega),
    length_of hv (lt_of_width na nb wv) (by omega), wz, wu, wv⟩
example : ∃ m n k l j, neg3.bitLength = .ok m ∧ pos2.bitLength = .ok n ∧ ReturnsLength (neg3.and pos2) k ∧ ReturnsLength (neg3.or pos2) l ∧
    ReturnsLength (neg3.xor pos2) j ∧ k ≤ max m n ∧ l ≤ max m n ∧ j ≤ max m n :=
  C72_bitwise _ _ _ _ neg3_denotes pos2_denotes (by decide) (by decide)

/-- `<< n` adds `n` to the length of a value other than zero. -/
theorem C72_shift_left (a : BigInt) (x : Int) (n : Nat) (ha : a.Denotes x) (hx : x ≠ 0) (hn : IntRange n)
    (hl : a.bits.length < 2 ^ 30) : ∃ m, a.bitLength = .ok m ∧ ReturnsLength (a.shl n) (m + n) := by
  have hn2 := hn.2
  have := length_of (C21_shift_left a x n ha hn (by omega)) (n := max 1 a.bits.length + (n / 32 + 1)) (by
    rw [Int.natAbs_mul, pow_add]
    refine Nat.mul_lt_mul'' (natAbs_lt_words ha) ?_
    rw [Int.natAbs_pow, show (𝔹 : Nat) = 2 ^ 32 by norm_num, ← pow_mul]
    exact Nat.pow_lt_pow_right (by decide) (by omega)) (by omega)
  rw [width_shl x hx] at this
  exact ⟨_, len ha hl, this⟩
example : ∃ m, neg3.bitLength = .ok m ∧ ReturnsLength (neg3.shl 75) (m + 75) :=
  C72_shift_left _ _ 75 neg3_denotes (by decide) (by decide) (by decide)

/-- `>> n` takes `n` off the length, as far as there is, outside the cases in which `>>` is wrong (C22). -/
theorem C72_shift_right_partial (a : BigInt) (x : Int) (n : Nat) (ha : a.Denotes x) (hn : IntRange n) (hl : a.bits.length < 2 ^ 26)
    (hm : ¬ ShiftMisfires x n) : ∃ m, a.bitLength = .ok m ∧ ReturnsLength (a.shr n) (m - n) := by
  have h1 := width_shr x n
  have := length_of (C22_shift_right_partial a x n ha hn (by unfold BigInt.Fits; omega) (fun _ => hl) hm) (n := max (max 1 a.bits.length) 0 + 1)
    (lt_of_width (x := x) (y := 0) (natAbs_lt_words ha) (by decide) (by omega)) (by omega)
  rw [h1] at this
  exact ⟨_, len ha (by omega), this⟩
example : ∃ m, neg3.bitLength = .ok m ∧ ReturnsLength (neg3.shr 33) (m - 33) :=
  C72_shift_right_partial _ _ 33 neg3_denotes (by decide) (by decide) (by rintro ⟨-, h, -⟩; revert h; decide)

/-- And in no other cases. -/
theorem C72_shift_right_exact_iff (a : BigInt) (x : Int) (n : Nat) (ha : a.Denotes x) (hn : IntRange n) (hl : a.bits.length < 2 ^ 26) :
    (∃ m, a.bitLength = .ok m ∧ ReturnsLength (a.shr n) (m - n)) ↔ ¬ ShiftMisfires x n := by
  refine ⟨?_, C72_shift_right_partial a x n ha hn hl⟩
  rintro ⟨m, h1, c, h2, h3⟩ hm
  obtain ⟨⟨b, h4, h5⟩, h6⟩ := C22_misfire a x n ha hl hm
  rw [h4] at h2
  obtain rfl := Res.ok.inj h2
  rw [bitLength_width h5 (by rw [h5.unique denotes_zero]; decide)] at h3
  rw [len ha (by omega)] at h1
  have e1 := Res.ok.inj h3
  have e2 := Res.ok.inj h1
  have e3 : width 0 = 0 := rfl
  have h7 : width (x / 2 ^ n) = 0 := by rw [width_shr]; omega
  have := (width_bounds (x / 2 ^ n)).1
  rw [h7] at this
  omega
/-- The value that C22 shows to be shifted wrongly has 64 bits; shifted by 32 it should keep 32 but has none. -/
example : BigInt.bitLength ⟨-1, [1, 4294967295]⟩ = .ok 64 ∧ ReturnsLength (BigInt.shr ⟨-1, [1, 4294967295]⟩ 32) 0 := by
  rename_i c; obtain ⟨d, s⟩ := c; cases d <;> cases s <;> exact ⟨by decide +kernel, ⟨0, []⟩, by decide +kernel, by decide +kernel⟩

/-- The length of a quotient is the difference of the lengths, up to one. -/
theorem C72_divide (a b : BigInt) (x y : Int) (ha : a.Denotes x) (hb : b.Denotes y) (hy : y ≠ 0) (hla : a.bits.length < 2 ^ 30)
    (hlb : b.bits.length < 2 ^ 30) :
    ∃ m n k, a.bitLength = .ok m ∧ b.bitLength = .ok n ∧ ReturnsLength (a.div b) k ∧ k ≤ m + 1 - n ∧ m ≤ k + n + 1 := by
  obtain ⟨h1, h2⟩ := width_tdiv x y hy
  refine ⟨_, _, _, len ha hla, len hb hlb, length_of (C10_divide a b x y ha hb hy (by unfold BigInt.Fits; omega))
    (n := max 1 a.bits.length) ?_ (by omega), h1, h2⟩
  refine lt_of_le_of_lt ?_ (natAbs_lt_words ha)
  rw [Int.natAbs_tdiv]
  exact Nat.div_le_self _ _
example : ∃ m n k, neg3.bitLength = .ok m ∧ pos2.bitLength = .ok n ∧ ReturnsLength (neg3.div pos2) k ∧ k ≤ m + 1 - n ∧ m ≤ k + n + 1 :=
  C72_divide _ _ _ _ neg3_denotes pos2_denotes (by decide) (by decide) (by decide)

/-- A remainder is no longer than the dividend, nor than the divisor. -/
theorem C72_remainder (a b : BigInt) (x y : Int) (ha : a.Denotes x) (hb : b.Denotes y) (hy : y ≠ 0) (hla : a.bits.length < 2 ^ 30)
    (hlb : b.bits.length < 2 ^ 30) :
    ∃ m n k, a.bitLength = .ok m ∧ b.bitLength = .ok n ∧ ReturnsLength (a.rem b) k ∧ k ≤ m ∧ k ≤ n := by
  obtain ⟨h1, h2⟩ := width_tmod x y hy
  refine ⟨_, _, _, len ha hla, len hb hlb, length_of (C11_remainder a b x y ha hb hy (by unfold BigInt.Fits; omega))
    (n := max 1 a.bits.length) ?_ (by omega), h1, h2⟩
  refine lt_of_le_of_lt ?_ (natAbs_lt_words ha)
  rw [Int.natAbs_tmod]
  exact Nat.mod_le _ _
example : ∃ m n k, neg3.bitLength = .ok m ∧ pos2.bitLength = .ok n ∧ ReturnsLength (neg3.rem pos2) k ∧ k ≤ m ∧ k ≤ n :=
  C72_remainder _ _ _ _ neg3_denotes pos2_denotes (by decide) (by decide) (by decide)

/-- The length of a power. -/
theorem C72_pow (a : BigInt) (x : Int) (n : Nat) (ha : a.Denotes x) (hx : x ≠ 0) (hn : IntRange n)
    (hsize : 1 + n * max 1 a.bits.length < 2 ^ 30) (hl : a.bits.length < 2 ^ 30) :
    ∃ m k, a.bitLength = .ok m ∧ ReturnsLength (a.pow n) k ∧ n * (m - 1) ≤ k ∧ k ≤ n * m + 1 := by
  obtain ⟨h1, h2⟩ := width_pow x hx n
  refine ⟨_, _, len ha hl, length_of (C15_pow a x n ha (by unfold BigInt.Fits; omega) hn (.inr (.inr (by omega))))
    (n := max 1 a.bits.length * n + 1) ?_ (by rw [Nat.mul_comm]; omega), h2, h1⟩
  rw [Int.natAbs_pow, pow_succ, pow_mul]
  have h3 := Nat.pow_le_pow_left (natAbs_lt_words ha).le n
  have h4 : 0 < (𝔹 ^ max 1 a.bits.length) ^ n := Nat.pow_pos (Nat.pow_pos (by decide))
  omega
example : ∃ m k, neg3.bitLength = .ok m ∧ ReturnsLength (neg3.pow 200) k ∧ 200 * (m - 1) ≤ k ∧ k ≤ 200 * m + 1 :=
  C72_pow _ _ 200 neg3_denotes (by decide) (by decide) (by decide) (by decide)

/-- The number of bytes of the two's-complement form is the bit length over eight, plus one; of the unsigned form it is
the bit length over eight rounded up, and at least one. -/
theorem C72_byte_count (a : BigInt) (x : Int) (ha : a.Denotes x) (hl : a.bits.length < 2 ^ 29) :
    ∃ m, a.bitLength = .ok m ∧ a.byteCount false = .ok (m / 8 + 1) ∧ (0 ≤ x → a.byteCount true = .ok (max 1 ((m + 7) / 8))) := by
  refine ⟨_, len ha (by omega), ?_, fun h0 => ?_⟩
  · obtain ⟨v, -, ⟨h2, h3⟩, h4, h5, h6, -⟩ := C28_minimal_bytes a x ha hl false false (by simp)
    rw [h6]
    congr 1
    have hpos : 0 < v.length := List.length_pos_iff.2 h3
    have hb := signedVal_bounds (n := 8) (by decide) (ws := v) h2 h3
    have e : signedVal 8 v = x := h4
    rw [e, ← width_le] at hb
    apply le_antisymm
    · obtain ⟨w, w1, w2, w3⟩ := exists_signed (n := 8) (L := width x / 8 + 1) (by decide) (by omega) (x := x) (by omega)
      have := h5 w w1 (by intro h; rw [h] at w2; simp at w2) w3
      omega
    · omega
  · obtain ⟨v, -, ⟨h2, h3⟩, h4, h5, h6, -⟩ := C28_minimal_bytes a x ha hl true false (fun _ => h0)
    rw [h6]
    congr 1
    have hpos : 0 < v.length := List.length_pos_iff.2 h3
    have e : ((digitsVal 256 v : Nat) : Int) = x := h4
    have hv := digitsVal_lt (b := 256) (by decide) h2
    have cast : ∀ L : Nat, ((256 ^ L : Nat) : Int) = 2 ^ (8 * L) := fun L => by rw [pow_mul]; push_cast; rfl
    have hp : ∀ L : Nat, 0 < 256 ^ L := fun L => Nat.pow_pos (by decide)
    apply le_antisymm
    · have hw : width x ≤ 8 * max 1 ((width x + 7) / 8) := by omega
      have hw' := (width_le.1 hw).2
      rw [← cast] at hw'
      have := h5 (lowDigits 256 (max 1 ((width x + 7) / 8)) x.toNat) (lowDigits_lt (by decide) _ _) (by
        intro h
        have := lowDigits_length 256 (max 1 ((width x + 7) / 8)) x.toNat
        rw [h] at this
        simp only [List.length_nil] at this
        omega) (by
        show ((digitsVal 256 (lowDigits 256 (max 1 ((width x + 7) / 8)) x.toNat) : Nat) : Int) = x
        rw [lowDigits_val, Nat.mod_eq_of_lt (by omega)]
        omega)
      rwa [lowDigits_length] at this
    · have : width x ≤ 8 * v.length := by
        rw [width_le, ← cast]
        have := hp v.length
        omega
      omega
example : ∃ m, neg3.bitLength = .ok m ∧ neg3.byteCount false = .ok (m / 8 + 1) ∧
    (0 ≤ (-18446744103774322693 : Int) → neg3.byteCount true = .ok (max 1 ((m + 7) / 8))) := C72_byte_count _ _ neg3_denotes (by decide)

/-- The number of words of `to_uint32_array()` is the bit length over 32, plus one; none for zero. -/
theorem C72_word_count (a : BigInt) (x : Int) (ha : a.Denotes x) (hl : a.bits.length < 2 ^ 30) :
    ∃ m r, a.bitLength = .ok m ∧ a.toUInt32Array = .ok r ∧ r.length = if x = 0 then 0 else m / 32 + 1 := by
  obtain ⟨r, h1, h2, h3, h4, h5⟩ := C42_to_uint32_array a x ha (by unfold BigInt.Fits; omega)
  refine ⟨_, r, len ha hl, h1, ?_⟩
  by_cases h0 : x = 0
  · rw [if_pos h0, h4.2 h0]; rfl
  · rw [if_neg h0]
    have hne : r ≠ [] := fun h => h0 (h4.1 h)
    have hpos : 0 < r.length := List.length_pos_iff.2 hne
    have hb := signedVal_bounds (n := 32) (by decide) (ws := r) h2 hne
    rw [h3, ← width_le] at hb
    apply le_antisymm
    · obtain ⟨w, w1, w2, w3⟩ := exists_signed (n := 32) (L := width x / 32 + 1) (by decide) (by omega) (x := x) (by omega)
      have := h5 w w1 (by intro h; rw [h] at w2; simp at w2) w3
      omega
    · omega
example : ∃ m r, neg3.bitLength = .ok m ∧ neg3.toUInt32Array = .ok r ∧ r.length = if (-18446744103774322693 : Int) = 0 then 0 else m / 32 + 1 :=
  C72_word_count _ _ neg3_denotes (by decide)

/-- The text of a value of bit length `m` has `d` digits and perhaps a minus sign, where `d` is between `3/10 * (m - 1)` and
`28/93 * m + 1` (the logarithm of 2 is 0.30103; 28/93 is 0.30108). -/
theorem C72_text_partial (a : BigInt) (x : Int) (ha : a.Denotes x) (hl : a.bits.length ≤ 2147483647 / 10) (hm : ¬ TextMisfires x) :
    ∃ m t d, a.bitLength = .ok m ∧ a.toStr = .ok t ∧ t.length = d + (if x < 0 then 1 else 0) ∧ 1 ≤ d ∧
      3 * m ≤ 10 * d + 2 ∧ 93 * (d - 1) ≤ 28 * m := by
  refine ⟨_, _, (Nat.toDigits 10 x.natAbs).length, len ha (by omega), C30_to_string_partial a x ha hl hm, ?_, Nat.length_toDigits_pos, ?_, ?_⟩
  · rw [int_toString]
    split <;> simp
  · by_cases h0 : x = 0
    · subst h0
      have : width 0 = 0 := rfl
      have := Nat.length_toDigits_pos (b := 10) (n := Int.natAbs 0)
      omega
    by_contra hc
    have h1 := (half_le h0).1
    have h2 := (Nat.length_toDigits_le_iff (b := 10) (n := x.natAbs) (by decide) Nat.length_toDigits_pos).1 le_rfl
    generalize (Nat.toDigits 10 x.natAbs).length = d at *
    rw [Int.abs_eq_natAbs, ← two_pow_cast] at h1
    have h3 : 2 ^ (width x - 1) < 10 ^ d := by omega
    have h4 : (2 ^ (width x - 1)) ^ 3 < (10 ^ d) ^ 3 := Nat.pow_lt_pow_left h3 (by decide)
    have h5 : (10 ^ d) ^ 3 ≤ 2 ^ (10 * d) := by
      rw [← pow_mul, Nat.mul_comm, pow_mul, pow_mul]
      exact Nat.pow_le_pow_left (by norm_num) d
    have h6 : 2 ^ (10 * d) ≤ (2 ^ (width x - 1)) ^ 3 := by
      rw [← pow_mul]
      exact Nat.pow_le_pow_right (by decide) (by omega)
    omega
  · by_contra hc
    have h1 := abs_le_width x
    have h2 : 10 ^ ((Nat.toDigits 10 x.natAbs).length - 1) ≤ x.natAbs := by
      by_contra hc'
      have := (Nat.length_toDigits_le_iff (b := 10) (n := x.natAbs) (k := (Nat.toDigits 10 x.natAbs).length - 1) (by decide) (by omega)).2 (by omega)
      omega
    generalize (Nat.toDigits 10 x.natAbs).length - 1 = d at *
    rw [Int.abs_eq_natAbs, ← two_pow_cast] at h1
    have h3 : 10 ^ d ≤ 2 ^ width x := by omega
    have h4 : (10 ^ d) ^ 28 ≤ (2 ^ width x) ^ 28 := Nat.pow_le_pow_left h3 28
    have h5 : (2 ^ width x) ^ 28 < 2 ^ (93 * d) := by
      rw [← pow_mul]
      exact Nat.pow_lt_pow_right (by decide) (by omega)
    have h6 : 2 ^ (93 * d) ≤ (10 ^ d) ^ 28 := by
      rw [← pow_mul, Nat.mul_comm d 28, pow_mul, pow_mul]
      exact Nat.pow_le_pow_left (by norm_num) d
    omega
example : ∃ m t d, neg3.bitLength = .ok m ∧ neg3.toStr = .ok t ∧ t.length = d + (if (-18446744103774322693 : Int) < 0 then 1 else 0) ∧ 1 ≤ d ∧
    3 * m ≤ 10 * d + 2 ∧ 93 * (d - 1) ≤ 28 * m := C72_text_partial _ _ neg3_denotes (by decide) (by decide +kernel)

end BigIntegerCpp
