import Verif.Lemmas.Shift
import Verif.Lemmas.MulDiv
import Verif.Props.Samples
/-
C21–C24, C37, C38, C42: shifts, bitwise operators, bit length, predicates, word export.
-/
namespace BigIntegerCpp
set_option linter.unusedVariables false
open Samples
variable [Cfg]

/-! ### C21 left shift -/

theorem C21_shift_left (a : BigInt) (x : Int) (n : Nat) (ha : a.Denotes x) (hn : IntRange n)
    (hl : a.bits.length + n / 32 + 2 < 2 ^ 31) : Returns (a.shl n) (x * 2 ^ n) := by
  simpa using BigInt.shl_pos ha (n := (n : Int)) (by omega) (by simpa using hl)
example : Returns (neg3.shl 75) (-18446744103774322693 * 2 ^ 75) :=
  C21_shift_left _ _ 75 neg3_denotes (by decide) (by decide)

/-! ### C22 right shift -/

/-- `>>` is floor division by `2^n`.  Missing from the full claim: negative values on which the
shift misfires (`ShiftMisfires`), where the claim is false (`C22_misfire`), and negative values of
`2^26` words or more, where the code overflows an `int`. -/
theorem C22_shift_right_partial (a : BigInt) (x : Int) (n : Nat) (ha : a.Denotes x) (hn : IntRange n)
    (fa : a.Fits) (hneg : x < 0 → a.bits.length < 2 ^ 26) (hm : ¬ ShiftMisfires x n) :
    Returns (a.shr n) (x / 2 ^ n) := by
  simpa using BigInt.shr_pos ha (n := (n : Int)) (by omega) (Nat.lt_succ_of_lt fa) hneg (by simpa using hm)

/-- For non-negative values `>>` is exact without exception. -/
theorem C22_shift_right_nonneg (a : BigInt) (x : Int) (n : Nat) (ha : a.Denotes x) (hn : IntRange n)
    (fa : a.Fits) (hx : 0 ≤ x) : Returns (a.shr n) (x / 2 ^ n) := by
  apply C22_shift_right_partial a x n ha hn fa (by omega)
  rintro ⟨-, -, L, -, -, h⟩
  have : (2 : Int) ^ n ≤ 2 ^ (n + 32 * L) := pow_le_pow_right₀ (by decide) (by omega)
  omega

/-- The quotient `x / 2^n` of the statements is the floor: the only `q` with
`q * 2^n ≤ x < (q+1) * 2^n`. -/
theorem C22_floor (x q : Int) (n : Nat) : x / 2 ^ n = q ↔ q * 2 ^ n ≤ x ∧ x < (q + 1) * 2 ^ n := by
  have hp : (0 : Int) < 2 ^ n := by positivity
  have := BigInt.floor_eq_neg (x := x) (Q := -q) hp
  rw [neg_neg] at this
  rw [this]
  generalize (2 : Int) ^ n = P
  have e1 : -(P * -q) = q * P := by ring
  have e2 : -(P * -q - P) = (q + 1) * P := by ring
  rw [e1, e2]

/-- On exactly the excluded arguments `>>` returns 0, although the floor is at most `-2^32`. -/
theorem C22_misfire (a : BigInt) (x : Int) (n : Nat) (ha : a.Denotes x) (hl : a.bits.length < 2 ^ 26)
    (hm : ShiftMisfires x n) : Returns (a.shr n) 0 ∧ x / 2 ^ n ≤ -(2 : Int) ^ 32 := by
  refine ⟨BigInt.shr_misfire ha hl (by simpa using hm), ?_⟩
  obtain ⟨-, -, L, hL, h1, h2⟩ := hm
  have hp : (0 : Int) < 2 ^ n := by positivity
  have h3 := (BigInt.floor_eq_neg (x := x) (Q := 2 ^ (32 * L)) hp).2 (by rw [← pow_add]; omega)
  rw [h3]
  have : (2 : Int) ^ 32 ≤ 2 ^ (32 * L) := pow_le_pow_right₀ (by decide) (by omega)
  omega

/-- On negative values of `2^26` words or more every positive shift overflows an `int`. -/
theorem C22_overflow (a : BigInt) (x : Int) (n : Nat) (ha : a.Denotes x) (hx : x < 0) (hn : IntRange n)
    (h0 : 0 < n) (fa : a.Fits) (hl : 2 ^ 26 ≤ a.bits.length) : a.shr n = .ub .signedOverflow :=
  BigInt.shr_overflow ha hx (by omega) (by simpa using hl) (Nat.lt_succ_of_lt fa)

/-- The complete description of `>>` with a non-negative count: it is the floor exactly outside
the two excluded cases. -/
theorem C22_exact_iff (a : BigInt) (x : Int) (n : Nat) (ha : a.Denotes x) (hn : IntRange n) (fa : a.Fits) :
    Returns (a.shr n) (x / 2 ^ n) ↔
      ¬ (x < 0 ∧ 0 < n ∧ 2 ^ 26 ≤ a.bits.length) ∧ ¬ ShiftMisfires x n := by
  by_cases hbig : x < 0 ∧ 0 < n ∧ 2 ^ 26 ≤ a.bits.length
  · constructor
    · rintro ⟨b, hb, -⟩
      rw [C22_overflow a x n ha hbig.1 hn hbig.2.1 fa hbig.2.2] at hb
      cases hb
    · exact fun h => absurd hbig h.1
  · by_cases hm : ShiftMisfires x n
    · have hx : x < 0 := by
        obtain ⟨-, -, L, -, -, h⟩ := hm
        have : (2 : Int) ^ n ≤ 2 ^ (n + 32 * L) := pow_le_pow_right₀ (by decide) (by omega)
        omega
      have hl : a.bits.length < 2 ^ 26 := by
        rw [← Nat.not_le]; exact fun h => hbig ⟨hx, hm.1, h⟩
      constructor
      · rintro ⟨b, hb, hd⟩
        obtain ⟨⟨c, hc, hd'⟩, hle⟩ := C22_misfire a x n ha hl hm
        obtain rfl : b = c := by rw [hb] at hc; exact Res.ok.inj hc
        have := hd.2.symm.trans hd'.2
        rw [this] at hle
        exact absurd hle (by decide)
      · exact fun h => absurd hm h.2
    · refine ⟨fun _ => ⟨hbig, hm⟩, fun _ => ?_⟩
      rcases Nat.eq_zero_or_pos n with rfl | hn0
      · refine ⟨a, ?_, by simpa using ha⟩
        unfold BigInt.shr
        rw [if_pos (by simp)]
      · exact C22_shift_right_partial a x n ha hn fa
          (fun hx => by rw [← Nat.not_le]; exact fun h => hbig ⟨hx, hn0, h⟩) hm

/-- Objects of that size exist: `2^26` words, each 1. -/
theorem C22_overflow_reached : ∃ (a : BigInt) (x : Int), a.Denotes x ∧ x < 0 ∧ a.Fits ∧
    2 ^ 26 ≤ a.bits.length ∧ a.shr 1 = .ub .signedOverflow := by
  have hd : ∀ n, BigInt.Denotes ⟨-1, List.replicate (n + 2) 1⟩ (-1 * (val (List.replicate (n + 2) 1) : Nat)) := by
    intro n
    refine BigInt.denotes_big (.inr rfl) (by simp) (fun w hw => ?_) (by rw [List.getLast?_replicate]; simp) ?_ rfl
    · rw [List.eq_of_mem_replicate hw]; decide
    · rw [List.replicate_succ, List.replicate_succ, val, digitsVal_cons, digitsVal_cons]; omega
  have hl : ∀ n, (List.replicate (n + 2) 1).length = n + 2 := fun n => List.length_replicate
  have hv : ∀ n, 0 < val (List.replicate (n + 2) 1) := fun n => by
    rw [List.replicate_succ, val, digitsVal_cons]; omega
  obtain ⟨N, hN⟩ : ∃ N : Nat, N = 67108864 := ⟨_, rfl⟩
  have hx : -1 * ((val (List.replicate (N + 2) 1) : Nat) : Int) < 0 := by have := hv N; omega
  have hf : BigInt.Fits ⟨-1, List.replicate (N + 2) 1⟩ := by
    show (List.replicate (N + 2) 1).length < 2147483647
    rw [hl]; omega
  have h26 : 2 ^ 26 ≤ (List.replicate (N + 2) 1).length := by rw [hl]; omega
  exact ⟨_, _, hd N, hx, hf, h26, C22_overflow _ _ 1 (hd N) hx (by decide) (by decide) hf h26⟩

/-- So the full claim is false: `-0xFFFFFFFF00000001 >> 32` is `-2^32` but the code returns 0. -/
theorem C22_refuted : ¬ ∀ (a : BigInt) (x : Int) (n : Nat), a.Denotes x → IntRange n → a.Fits →
    a.bits.length < 2 ^ 26 → Returns (a.shr n) (x / 2 ^ n) := by
  intro h
  have hd : BigInt.Denotes ⟨-1, [1, 4294967295]⟩ (-18446744069414584321) :=
    BigInt.denotes_big (.inr rfl) (by decide) (by decide) (by decide) (by decide) (by decide)
  obtain ⟨b, h1, h2⟩ := h _ _ 32 hd (by decide) (by decide) (by decide)
  obtain ⟨⟨c, h3, h4⟩, -⟩ := C22_misfire _ _ 32 hd (by decide) ⟨by decide, by decide, 1, by decide, by decide, by decide⟩
  obtain rfl : b = c := by rw [h1] at h3; exact Res.ok.inj h3
  have := h2.2.symm.trans h4.2
  exact absurd this (by decide)

example : Returns (neg3.shr 33) (-18446744103774322693 / 2 ^ 33) :=
  C22_shift_right_partial _ _ 33 neg3_denotes (by decide) (by decide) (fun _ => by decide) (fun h => absurd h.2.1 (by decide))
/-- A whole-word shift that does not misfire. -/
example : ¬ ShiftMisfires (-42) 32 := by
  rintro ⟨-, -, L, hL, -, h⟩
  have : (2 : Int) ^ (32 + 32) ≤ 2 ^ (32 + 32 * L) := pow_le_pow_right₀ (by decide) (by omega)
  omega

/-! ### C23 negative counts -/

/-- `a >> n` with negative `n` is `a * 2^(-n)`, `INT_MIN` included. -/
theorem C23_shift_right_negative (a : BigInt) (x n : Int) (ha : a.Denotes x) (hn : IntRange n) (hneg : n < 0)
    (hl : a.bits.length + n.natAbs / 32 + 5 < 2 ^ 31) : Returns (a.shr n) (x * 2 ^ n.natAbs) := by
  have e : n.natAbs = (-n).toNat := by omega
  rw [e] at hl ⊢
  exact BigInt.shr_neg ha hneg hl

/-- `a << n` with negative `n` is `floor(a / 2^(-n))`, `INT_MIN` included.  Missing from the full
claim: the misfiring arguments of `>>` (`C23_misfire`). -/
theorem C23_shift_left_negative_partial (a : BigInt) (x n : Int) (ha : a.Denotes x) (hn : IntRange n) (hneg : n < 0)
    (fa : a.Fits) (hl : x < 0 → a.bits.length < 2 ^ 26) (hm : n ≠ -2 ^ 31 → ¬ ShiftMisfires x n.natAbs) :
    Returns (a.shl n) (x / 2 ^ n.natAbs) := by
  have e : n.natAbs = (-n).toNat := by omega
  rw [e] at hm ⊢
  exact BigInt.shl_neg ha hneg (Nat.lt_succ_of_lt fa) hl hm

theorem C23_misfire (a : BigInt) (x n : Int) (ha : a.Denotes x) (hn : IntRange n) (hne : n ≠ -2 ^ 31) (hneg : n < 0)
    (hl : a.bits.length < 2 ^ 26) (hm : ShiftMisfires x n.natAbs) : Returns (a.shl n) 0 := by
  have e : n.natAbs = (-n).toNat := by omega
  rw [e] at hm
  have : n ≠ -2147483648 := hne
  exact BigInt.shl_neg_misfire ha (by have := hn.1; omega) hl hm

/-- On negative values of `2^26` words or more every negative left shift overflows an `int`. -/
theorem C23_overflow (a : BigInt) (x n : Int) (ha : a.Denotes x) (hx : x < 0) (hn : IntRange n)
    (hneg : n < 0) (fa : a.Fits) (hl : 2 ^ 26 ≤ a.bits.length) : a.shl n = .ub .signedOverflow :=
  BigInt.shl_overflow ha hx hneg (by simpa using hl) (Nat.lt_succ_of_lt fa)

/-- The complete description of `<<` with a negative count. -/
theorem C23_exact_iff (a : BigInt) (x n : Int) (ha : a.Denotes x) (hn : IntRange n) (hneg : n < 0) (fa : a.Fits) :
    Returns (a.shl n) (x / 2 ^ n.natAbs) ↔
      ¬ (x < 0 ∧ 2 ^ 26 ≤ a.bits.length) ∧ ¬ (n ≠ -2 ^ 31 ∧ ShiftMisfires x n.natAbs) := by
  by_cases hbig : x < 0 ∧ 2 ^ 26 ≤ a.bits.length
  · constructor
    · rintro ⟨b, hb, -⟩
      rw [C23_overflow a x n ha hbig.1 hn hneg fa hbig.2] at hb
      cases hb
    · exact fun h => absurd hbig h.1
  · by_cases hm : n ≠ -2 ^ 31 ∧ ShiftMisfires x n.natAbs
    · have hx : x < 0 := by
        obtain ⟨-, -, -, L, -, -, h⟩ := hm
        have : (2 : Int) ^ n.natAbs ≤ 2 ^ (n.natAbs + 32 * L) := pow_le_pow_right₀ (by decide) (by omega)
        omega
      have hl : a.bits.length < 2 ^ 26 := by
        rw [← Nat.not_le]; exact fun h => hbig ⟨hx, h⟩
      constructor
      · rintro ⟨b, hb, hd⟩
        have hle := (C22_misfire a x n.natAbs ha hl hm.2).2
        obtain ⟨c, hc, hd'⟩ := C23_misfire a x n ha hn hm.1 hneg hl hm.2
        obtain rfl : b = c := by rw [hb] at hc; exact Res.ok.inj hc
        have := hd.2.symm.trans hd'.2
        rw [this] at hle
        exact absurd hle (by decide)
      · exact fun h => absurd hm h.2
    · exact ⟨fun _ => ⟨hbig, hm⟩, fun _ => C23_shift_left_negative_partial a x n ha hn hneg fa
        (fun hx => by rw [← Nat.not_le]; exact fun h => hbig ⟨hx, h⟩) (fun h1 h2 => hm ⟨h1, h2⟩)⟩

example : Returns (neg3.shr (-2147483648)) (-18446744103774322693 * 2 ^ (-2147483648 : Int).natAbs) :=
  C23_shift_right_negative _ _ _ neg3_denotes (by decide) (by decide) (by decide)
example : Returns (neg3.shl (-7)) (-18446744103774322693 / 2 ^ (-7 : Int).natAbs) :=
  C23_shift_left_negative_partial _ _ _ neg3_denotes (by decide) (by decide) (by decide) (fun _ => by decide)
    (fun _ h => absurd h.2.1 (by decide))

/-! ### C24 bitwise operators -/

/-- Integers are determined by their bits, so the theorems below pin the results down. -/
theorem C24_bits_determine (x y : Int) (h : ∀ k, ibit x k = ibit y k) : x = y := ibit_ext h

theorem C24_and (a b : BigInt) (x y : Int) (ha : a.Denotes x) (hb : b.Denotes y)
    (hla : a.bits.length < 2 ^ 31 - 2) (hlb : b.bits.length < 2 ^ 31 - 2) :
    ∃ z, Returns (a.and b) z ∧ ∀ k, ibit z k = (ibit x k && ibit y k) := BigInt.and_spec ha hb hla hlb

theorem C24_or (a b : BigInt) (x y : Int) (ha : a.Denotes x) (hb : b.Denotes y)
    (hla : a.bits.length < 2 ^ 31 - 2) (hlb : b.bits.length < 2 ^ 31 - 2) :
    ∃ z, Returns (a.or b) z ∧ ∀ k, ibit z k = (ibit x k || ibit y k) := BigInt.or_spec ha hb hla hlb

theorem C24_xor (a b : BigInt) (x y : Int) (ha : a.Denotes x) (hb : b.Denotes y)
    (hla : a.bits.length < 2 ^ 31 - 2) (hlb : b.bits.length < 2 ^ 31 - 2) :
    ∃ z, Returns (a.xor b) z ∧ ∀ k, ibit z k = Bool.xor (ibit x k) (ibit y k) := BigInt.xor_spec ha hb hla hlb

theorem C24_not (a : BigInt) (x : Int) (ha : a.Denotes x) (fa : a.Fits) :
    ∃ z, Returns a.compl z ∧ z = -x - 1 ∧ ∀ k, ibit z k = !ibit x k := by
  obtain ⟨b, h1, h2⟩ := BigInt.add_spec ha denotes_one fa (by decide)
  obtain ⟨c, h3, h4⟩ := BigInt.neg_spec h2
  have e : -(x + 1) = -x - 1 := by ring
  refine ⟨-(x + 1), ⟨c, ?_, h4⟩, e, fun k => ?_⟩
  · unfold BigInt.compl; rw [h1, Res.ok_bind, h3]
  · rw [e]; exact ibit_not x k

example : (∃ z, Returns (neg3.and pos2) z ∧ ∀ k, ibit z k = (ibit (-18446744103774322693) k && ibit 38654705667 k)) ∧
    (∃ z, Returns small.compl z ∧ z = - -42 - 1 ∧ ∀ k, ibit z k = !ibit (-42) k) :=
  ⟨C24_and _ _ _ _ neg3_denotes pos2_denotes (by decide) (by decide), C24_not _ _ small_denotes small_fits⟩
/-- The bits of the specification on a literal: -42 is ...11010110. -/
example : (List.range 8).map (ibit (-42)) = [false, true, true, false, true, false, true, true] := by decide

/-! ### C37 bit length -/

/-- The returned `n` is the least one with `-2^n ≤ x < 2^n`. -/
theorem C37_bit_length (a : BigInt) (x : Int) (ha : a.Denotes x) (fa : a.Fits) :
    ∃ n, a.bitLength = .ok n ∧ (-(2 : Int) ^ n ≤ x ∧ x < 2 ^ n) ∧
      ∀ m : Nat, -(2 : Int) ^ m ≤ x → x < 2 ^ m → n ≤ m := BigInt.bitLength_spec ha (Nat.lt_succ_of_lt fa)
example : ∃ n, neg3.bitLength = .ok n ∧ (-(2 : Int) ^ n ≤ -18446744103774322693 ∧ -18446744103774322693 < (2 : Int) ^ n) ∧
      ∀ m : Nat, -(2 : Int) ^ m ≤ -18446744103774322693 → -18446744103774322693 < (2 : Int) ^ m → n ≤ m :=
  C37_bit_length _ _ neg3_denotes neg3_fits

/-! ### C38 predicates -/

theorem C38_is_zero (a : BigInt) (x : Int) (ha : a.Denotes x) : a.isZero = .ok (decide (x = 0)) :=
  BigInt.isZero_eq ha

theorem C38_is_one (a : BigInt) (x : Int) (ha : a.Denotes x) : a.isOne = .ok (decide (x = 1)) := by
  unfold BigInt.isOne
  rw [ha.assertValid, Res.ok_bind]
  congr 1
  rw [decide_eq_decide]
  rcases ha.shape with ⟨rfl, h1, h2⟩ | ⟨s, xs, rfl, hs1, hne1, hw1, ht1, hv1, rfl⟩
  · simp
  · simp only [List.length_eq_zero_iff, hne1, and_false, false_iff]
    rcases hs1 with rfl | rfl <;> omega

theorem C38_is_even (a : BigInt) (x : Int) (ha : a.Denotes x) : a.isEven = .ok (decide (x % 2 = 0)) := by
  unfold BigInt.isEven
  rw [ha.assertValid, Res.ok_bind]
  congr 1
  rcases ha.shape with ⟨rfl, h1, h2⟩ | ⟨s, xs, rfl, hs1, hne1, hw1, ht1, hv1, rfl⟩
  · simp only [List.length_nil, if_true, Nat.and_one_is_mod, decide_eq_decide]
    unfold u32i; omega
  · obtain ⟨w, ws, rfl⟩ := List.exists_cons_of_ne_nil hne1
    rw [if_neg (by simp), decide_eq_decide]
    simp only [List.headD_cons, Nat.and_one_is_mod, val_cons]
    rcases hs1 with rfl | rfl <;> omega

theorem C38_is_power_of_two (a : BigInt) (x : Int) (ha : a.Denotes x) :
    ∃ r, a.isPowerOfTwo = .ok r ∧ (r = true ↔ ∃ k : Nat, x = 2 ^ k) := BigInt.isPowerOfTwo_spec ha

example : neg3.isEven = .ok (decide ((-18446744103774322693 : Int) % 2 = 0)) ∧
    (∃ r, pos2.isPowerOfTwo = .ok r ∧ (r = true ↔ ∃ k : Nat, (38654705667 : Int) = 2 ^ k)) :=
  ⟨C38_is_even _ _ neg3_denotes, C38_is_power_of_two _ _ pos2_denotes⟩

/-! ### C42 word export -/

/-- The exported words denote the value in two's complement, are empty exactly for zero, and no
shorter non-empty list denotes the value. -/
theorem C42_to_uint32_array (a : BigInt) (x : Int) (ha : a.Denotes x) (fa : a.Fits) :
    ∃ r, a.toUInt32Array = .ok r ∧ WordsOk r ∧ signedVal 32 r = x ∧ (r = [] ↔ x = 0) ∧
      ∀ ws, WordsOk ws → ws ≠ [] → signedVal 32 ws = x → r.length ≤ ws.length := by
  obtain ⟨r, h1, h2, -, h4, -, h6, h7⟩ := toUInt32Array_spec ha (Nat.lt_succ_of_lt fa)
  exact ⟨r, h1, h2, h4, h6, h7⟩
example : ∃ r, neg3.toUInt32Array = .ok r ∧ WordsOk r ∧ signedVal 32 r = -18446744103774322693 ∧
    (r = [] ↔ (-18446744103774322693 : Int) = 0) ∧
    ∀ ws, WordsOk ws → ws ≠ [] → signedVal 32 ws = -18446744103774322693 → r.length ≤ ws.length :=
  C42_to_uint32_array _ _ neg3_denotes neg3_fits
/-- The words of the specification on a literal: -2 in two words. -/
example : signedVal 32 [4294967294, 4294967295] = -2 := by decide

/-! ### instances of the remaining theorems -/

/-- `-0xFFFFFFFF00000001 >> 32` and, with a negative count, `<< -32`. -/
example : Returns (BigInt.shr ⟨-1, [1, 4294967295]⟩ 32) 0 ∧ Returns (BigInt.shl ⟨-1, [1, 4294967295]⟩ (-32)) 0 :=
  ⟨(C22_misfire _ (-18446744069414584321) 32 (BigInt.denotes_big (.inr rfl) (by decide) (by decide) (by decide) (by decide) (by decide)) (by decide)
      ⟨by decide, by decide, 1, by decide, by decide, by decide⟩).1,
   C23_misfire _ (-18446744069414584321) (-32) (BigInt.denotes_big (.inr rfl) (by decide) (by decide) (by decide) (by decide) (by decide)) (by decide)
      (by decide) (by decide) (by decide) ⟨by decide, by decide, 1, by decide, by decide, by decide⟩⟩
example : Returns (pos2.shr 33) (38654705667 / 2 ^ 33) := C22_shift_right_nonneg _ _ 33 pos2_denotes (by decide) pos2_fits (by decide)
example : Returns (neg3.shr 33) (-18446744103774322693 / 2 ^ 33) :=
  (C22_exact_iff _ _ 33 neg3_denotes (by decide) neg3_fits).2 ⟨fun h => absurd h.2.2 (by decide), fun h => absurd h.2.1 (by decide)⟩
example : ¬ Returns (BigInt.shl ⟨-1, [1, 4294967295]⟩ (-32)) (-18446744069414584321 / 2 ^ 32) := fun h =>
  ((C23_exact_iff _ (-18446744069414584321) (-32) (BigInt.denotes_big (.inr rfl) (by decide) (by decide) (by decide) (by decide) (by decide)) (by decide)
    (by decide) (by decide)).1 h).2 ⟨by decide, by decide, by decide, 1, by decide, by decide, by decide⟩
/-- The value of `C22_overflow_reached` shifted by a negative count. -/
example : ∃ (a : BigInt) (x : Int), a.Denotes x ∧ a.shl (-1) = .ub .signedOverflow := by
  obtain ⟨a, x, h1, h2, h3, h4, -⟩ := C22_overflow_reached
  exact ⟨a, x, h1, C23_overflow a x (-1) h1 h2 (by decide) (by decide) h3 h4⟩
example : (∃ z, Returns (neg3.or pos2) z ∧ ∀ k, ibit z k = (ibit (-18446744103774322693) k || ibit 38654705667 k)) ∧
    (∃ z, Returns (neg3.xor pos2) z ∧ ∀ k, ibit z k = Bool.xor (ibit (-18446744103774322693) k) (ibit 38654705667 k)) :=
  ⟨C24_or _ _ _ _ neg3_denotes pos2_denotes (by decide) (by decide), C24_xor _ _ _ _ neg3_denotes pos2_denotes (by decide) (by decide)⟩
example : neg3.isZero = .ok false ∧ BigInt.isOne ⟨1, []⟩ = .ok true :=
  ⟨C38_is_zero _ _ neg3_denotes, C38_is_one _ 1 (BigInt.denotes_small (by decide) (by decide))⟩

end BigIntegerCpp
