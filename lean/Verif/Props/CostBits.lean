import Verif.Lemmas.CostBits
import Verif.Props.Samples
/-
C80: what shifts, bitwise operators, comparisons, queries and byte conversions cost.

The routines `Cost.…` (Model/CostBits.lean) are the operations with a count of steps (iterations of a loop,
words and bytes filled or copied), of the nesting of recursive calls, and of the words of temporary arrays
alive at the same time; their outcomes are those of the operations (first conjunct of each statement).
-/
set_option linter.unusedSectionVars false
namespace BigIntegerCpp
variable [Cfg]
open Samples Counted

private theorem cost {α : Type} {r : Counted α} {o : Res α} {s w : Nat} (h : Within r s 0 (0 + w)) (e : r.res = o) :
    r.res = o ∧ r.steps ≤ s ∧ r.depth = 0 ∧ r.words ≤ w := ⟨e, h.1, Nat.le_zero.1 h.2, (Nat.zero_add w) ▸ h.3⟩

/-- C80.  `a <<= s`: linear in the words of `a` and in the words added. -/
theorem C80_shift_left (a : BigInt) (s m : Nat) (hm : max 1 a.bits.length ≤ m) :
    (Cost.shl a s).res = a.shl s ∧ (Cost.shl a s).steps ≤ 9 * m + 4 * (s / 32) + 4 ∧ (Cost.shl a s).depth = 0 ∧
    (Cost.shl a s).words ≤ 3 * m + 2 * (s / 32) + 2 :=
  cost (Cost.shl_left_within 0 0 a (Int.natCast_nonneg s) hm) (Cost.shl_res a s)

/-- Shifting a number of three words by 100 bits. -/
example : (Cost.shl neg3 (100 : Nat)).res = neg3.shl (100 : Nat) ∧ (Cost.shl neg3 (100 : Nat)).steps ≤ 43 ∧ (Cost.shl neg3 (100 : Nat)).depth = 0 ∧
    (Cost.shl neg3 (100 : Nat)).words ≤ 17 := C80_shift_left neg3 100 3 (by decide)

/-- C80.  `a >>= s`: linear in the words of `a`, whatever the count. -/
theorem C80_shift_right (a : BigInt) (s m : Nat) (hm : max 1 a.bits.length ≤ m) :
    (Cost.shr a s).res = a.shr s ∧ (Cost.shr a s).steps ≤ 13 * m ∧ (Cost.shr a s).depth = 0 ∧ (Cost.shr a s).words ≤ 3 * m :=
  cost (Cost.shr_right_within 0 0 a (Int.natCast_nonneg s) hm) (Cost.shr_res a s)

/-- Shifting the same by two thousand million bits. -/
example : (Cost.shr neg3 (2000000000 : Nat)).steps ≤ 39 := (C80_shift_right neg3 2000000000 3 (by decide)).2.1

/-- C80.  The negative counts, including `INT_MIN`. -/
theorem C80_shift_negative (a : BigInt) (s : Int) (hs : s < 0) (m : Nat) (hm : max 1 a.bits.length ≤ m) :
    ((Cost.shl a s).res = a.shl s ∧ (Cost.shl a s).steps ≤ 28 * m ∧ (Cost.shl a s).depth = 0 ∧ (Cost.shl a s).words ≤ 4 * m) ∧
    ((Cost.shr a s).res = a.shr s ∧ (Cost.shr a s).steps ≤ 20 * m + 14 * (s.natAbs / 32) + 8 ∧ (Cost.shr a s).depth = 0 ∧
      (Cost.shr a s).words ≤ 4 * m + 4 * (s.natAbs / 32) + 4) :=
  ⟨cost (Cost.shl_right_within 0 0 a hs hm) (Cost.shl_res a s), cost (Cost.shr_left_within 0 0 a hs hm) (Cost.shr_res a s)⟩

example : (Cost.shl neg3 (-2147483648)).steps ≤ 84 := (C80_shift_negative neg3 (-2147483648) (by decide) 3 (by decide)).1.2.1
example : (Cost.shr neg3 (-100)).steps ≤ 110 := (C80_shift_negative neg3 (-100) (by decide) 3 (by decide)).2.2.1

/-- C80.  `&=`, `|=`, `^=` on numbers of at most `m` words. -/
theorem C80_bitwise (a b : BigInt) (m : Nat) (ha : max 1 a.bits.length ≤ m) (hb : max 1 b.bits.length ≤ m) :
    ((Cost.and a b).res = a.and b ∧ (Cost.and a b).steps ≤ 16 * m + 8 ∧ (Cost.and a b).depth = 0 ∧ (Cost.and a b).words ≤ 5 * m + 4) ∧
    ((Cost.or a b).res = a.or b ∧ (Cost.or a b).steps ≤ 16 * m + 8 ∧ (Cost.or a b).depth = 0 ∧ (Cost.or a b).words ≤ 5 * m + 4) ∧
    ((Cost.xor a b).res = a.xor b ∧ (Cost.xor a b).steps ≤ 16 * m + 8 ∧ (Cost.xor a b).depth = 0 ∧ (Cost.xor a b).words ≤ 5 * m + 4) :=
  have e : ∀ {α : Type} {r : Counted α} {s : Nat}, Within r s 0 (0 + 5 * m + 4) → Within r s 0 (0 + (5 * m + 4)) := fun h =>
    h.mono (Nat.le_refl _) (Nat.le_refl _) (by omega)
  ⟨cost (e (Cost.and_within 0 0 a b ha hb)) (Cost.and_res a b), cost (e (Cost.or_within 0 0 a b ha hb)) (Cost.or_res a b),
    cost (e (Cost.xor_within 0 0 a b ha hb)) (Cost.xor_res a b)⟩

example : (Cost.and neg3 pos2).steps ≤ 56 := (C80_bitwise neg3 pos2 3 (by decide) (by decide)).1.2.1

/-- C80.  `-a` and `~a`. -/
theorem C80_negate_not (a : BigInt) (x : Int) (ha : a.Denotes x) (hl : a.bits.length < 2147483646) (m : Nat) (hm : max 1 a.bits.length ≤ m) :
    ((Cost.neg a).res = a.neg ∧ (Cost.neg a).steps ≤ 2 * m ∧ (Cost.neg a).depth = 0 ∧ (Cost.neg a).words ≤ m) ∧
    ((Cost.compl a).res = a.compl ∧ (Cost.compl a).steps ≤ 11 * m + 6 ∧ (Cost.compl a).depth = 0 ∧ (Cost.compl a).words ≤ 3 * m + 2) :=
  ⟨cost ((Cost.neg_within 0 0 a).mono (by omega) (Nat.le_refl _) (by omega)) (Cost.neg_res a),
    cost ((Cost.compl_within ha hl).mono (by omega) (Nat.le_refl _) (by omega)) (Cost.compl_res a)⟩

example : (Cost.compl neg3).steps ≤ 39 := (C80_negate_not neg3 _ neg3_denotes (by decide) 3 (by decide)).2.2.1

/-- C80.  Comparisons look at no more words than the shorter operand has, and copy nothing. -/
theorem C80_compare (a b : BigInt) :
    ((Cost.compareTo a b).res = a.compareTo b ∧ (Cost.compareTo a b).steps ≤ min a.bits.length b.bits.length ∧ (Cost.compareTo a b).depth = 0 ∧
      (Cost.compareTo a b).words ≤ 0) ∧
    ((Cost.equals a b).res = a.equals b ∧ (Cost.equals a b).steps ≤ 2 * min a.bits.length b.bits.length ∧ (Cost.equals a b).depth = 0 ∧
      (Cost.equals a b).words ≤ 0) :=
  ⟨cost (Cost.compareTo_within 0 0 a b) (Cost.compareTo_res a b), cost (Cost.equals_within 0 0 a b) (Cost.equals_res a b)⟩

example : (Cost.compareTo neg3 pos2).steps ≤ 2 := (C80_compare neg3 pos2).1.2.1

/-- C80.  They look at no word at all if the operands have different signs, or arrays of different lengths. -/
theorem C80_compare_constant (a b : BigInt) (x y : Int) (ha : a.Denotes x) (hb : b.Denotes y) (hfa : a.Fits) (hfb : b.Fits)
    (h : a.bits.length ≠ b.bits.length ∨ (x < 0 ∧ 0 ≤ y) ∨ (y < 0 ∧ 0 ≤ x)) :
    (Cost.compareTo a b).res = a.compareTo b ∧ (Cost.compareTo a b).steps = 0 ∧
    (Cost.equals a b).res = a.equals b ∧ (Cost.equals a b).steps = 0 := by
  have hla : a.bits.length < 2147483648 := Nat.lt_succ_of_lt hfa
  have hlb : b.bits.length < 2147483648 := Nat.lt_succ_of_lt hfb
  have h1 := ha.sign_neg
  have h2 := hb.sign_neg
  refine ⟨Cost.compareTo_res a b, Nat.le_zero.1 (?_ : Within (Cost.compareTo a b) 0 0 0).1, Cost.equals_res a b,
    Nat.le_zero.1 (?_ : Within (Cost.equals a b) 0 0 0).1⟩
  · unfold Cost.compareTo
    refine within_lift_bind fun _ _ => within_lift_bind fun _ _ => Cost.within_ite (fun _ => within_pure _ _ _) fun hs =>
      Cost.within_ite (fun _ => ?_) fun hne => ?_
    · exact Cost.within_ite (fun _ => within_pure _ _ _) fun _ => within_lift _ _ _
    · refine within_lift_bind fun c hc => within_lift_bind fun e he => Cost.within_ite (fun _ => within_pure _ _ _) fun g1 =>
        Cost.within_ite (fun _ => within_lift _ _ _) fun g2 => False.elim ?_
      rw [sizeInt_ok hla] at hc
      rw [sizeInt_ok hlb] at he
      injection hc with hc
      injection he with he
      rw [BigInt.i32_xor_neg ha.1.signRange hb.1.signRange] at hs
      rcases h with h | h | h
      · exact h (by push Not at g1; omega)
      · exact hs (by rw [ne_eq, decide_eq_decide]; omega)
      · exact hs (by rw [ne_eq, decide_eq_decide]; omega)
  · unfold Cost.equals
    refine within_lift_bind fun _ _ => within_lift_bind fun _ _ => Cost.within_ite (fun _ => within_pure _ _ _) fun hs => ?_
    have hl : a.bits.length ≠ b.bits.length := by
      rcases h with h | h | h
      · exact h
      · omega
      · omega
    rw [if_neg hl, if_neg (fun e => hl (congrArg List.length e)), if_pos hl]
    refine within_tick_bind (n := 0) (t := 0) ?_
    exact Cost.within_ite (fun _ => within_pure _ _ _) fun _ => within_pure _ _ _

/-- A negative number of three words and a positive one of two. -/
example : (Cost.equals neg3 pos2).steps = 0 := (C80_compare_constant neg3 pos2 _ _ neg3_denotes pos2_denotes neg3_fits pos2_fits (Or.inl (by decide))).2.2.2

/-- C80.  Comparing a number with an equal one looks at every word: the bound is attained. -/
theorem C80_compare_linear (a : BigInt) (x : Int) (ha : a.Denotes x) (hf : a.Fits) :
    (Cost.compareTo a a).res = .ok 0 ∧ (Cost.compareTo a a).steps = a.bits.length := by
  have hla : a.bits.length < 2147483648 := Nat.lt_succ_of_lt hf
  have hd : ∀ l : List Nat, BigInt.diffLength l l = 0 := by
    intro l
    induction l with
    | nil => rfl
    | cons c l ih => simp [BigInt.diffLength, ih]
  refine ⟨?_, ?_⟩
  · rw [Cost.compareTo_res]
    obtain ⟨c, hc, _, h0, _⟩ := BigInt.compareTo_spec ha ha hla hla
    rw [hc, h0.2 rfl]
  · unfold Cost.compareTo
    rw [ha.assertValid, sizeInt_ok hla, if_neg (by rw [BigInt.i32_xor_neg ha.1.signRange ha.1.signRange]; simp)]
    by_cases h : a.bits = []
    · rw [if_pos h, if_pos h, h]; rfl
    · rw [if_neg h]
      simp [Counted.bind, lift, Cost.diffLength, hd, tick, h, Bind.bind, Pure.pure]

example : (Cost.compareTo neg3 neg3).steps = 3 := (C80_compare_linear neg3 _ neg3_denotes neg3_fits).2

/-- C80.  `get_hash_code`, `is_power_of_two`, `get_bit_length`. -/
theorem C80_queries (a : BigInt) :
    ((Cost.hashCode a).res = .ok a.hashCode ∧ (Cost.hashCode a).steps = a.bits.length ∧ (Cost.hashCode a).words = 0) ∧
    ((Cost.isPowerOfTwo a).res = a.isPowerOfTwo ∧ (Cost.isPowerOfTwo a).steps ≤ a.bits.length ∧ (Cost.isPowerOfTwo a).words = 0) ∧
    ((Cost.bitLength a).res = a.bitLength ∧ (Cost.bitLength a).steps ≤ a.bits.length ∧ (Cost.bitLength a).words = 0) := by
  have e1 := Cost.within_tick_lift (a.bits.length - 1) a.isPowerOfTwo 0 0
  have e2 := Cost.within_tick_lift (a.bits.length - 1) a.bitLength 0 0
  exact ⟨⟨rfl, rfl, rfl⟩, ⟨Cost.isPowerOfTwo_res a, e1.1.trans (Nat.sub_le _ _), Nat.le_zero.1 e1.3⟩,
    Cost.bitLength_res a, e2.1.trans (Nat.sub_le _ _), Nat.le_zero.1 e2.3⟩

example : (Cost.hashCode neg3).steps = 3 := (C80_queries neg3).1.2.1

/-- C80.  The constructor from `l` bytes. -/
theorem C80_of_bytes (v : List Nat) (isUnsigned isBigEndian : Bool) :
    (Cost.ofBytes v isUnsigned isBigEndian).res = ofBytes v isUnsigned isBigEndian ∧
    (Cost.ofBytes v isUnsigned isBigEndian).steps ≤ 4 * v.length + 3 ∧ (Cost.ofBytes v isUnsigned isBigEndian).depth = 0 ∧
    (Cost.ofBytes v isUnsigned isBigEndian).words ≤ 2 * v.length :=
  cost (Cost.ofBytes_within 0 0 v isUnsigned isBigEndian) (Cost.ofBytes_res v isUnsigned isBigEndian)

example : (Cost.ofBytes [1, 2, 3, 4, 5, 255] false true).steps ≤ 27 := (C80_of_bytes [1, 2, 3, 4, 5, 255] false true).2.1

/-- C80.  `to_byte_array` and `get_byte_count`. -/
theorem C80_to_bytes (a : BigInt) (isUnsigned isBigEndian : Bool) :
    ((Cost.toBytes a isUnsigned isBigEndian).res = a.toBytes isUnsigned isBigEndian ∧
      (Cost.toBytes a isUnsigned isBigEndian).steps ≤ 11 * a.bits.length + 10 ∧ (Cost.toBytes a isUnsigned isBigEndian).depth = 0 ∧
      (Cost.toBytes a isUnsigned isBigEndian).words ≤ a.bits.length) ∧
    ((Cost.byteCount a isUnsigned).res = a.byteCount isUnsigned ∧ (Cost.byteCount a isUnsigned).steps ≤ 2 * a.bits.length + 1 ∧
      (Cost.byteCount a isUnsigned).depth = 0 ∧ (Cost.byteCount a isUnsigned).words ≤ a.bits.length) :=
  ⟨cost (Cost.toBytes_within 0 0 a isUnsigned isBigEndian) (Cost.toBytes_res a isUnsigned isBigEndian),
    cost (Cost.byteCount_within 0 0 a isUnsigned) (Cost.byteCount_res a isUnsigned)⟩

example : (Cost.toBytes neg3 false true).steps ≤ 43 := (C80_to_bytes neg3 false true).1.2.1

end BigIntegerCpp
