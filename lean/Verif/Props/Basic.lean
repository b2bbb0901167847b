import Verif.Lemmas.MulDiv
import Verif.Props.Samples
/-
C01, C02 (uniqueness), C03, C04, C07, C08, C43, C61: constructors, canonical form, comparison, hash,
sign operations.
-/
namespace BigIntegerCpp
open Samples
variable [Cfg]

/-! ### C01 integer constructors -/

/-- `BigInteger(int32_t)` is exact on every `int32_t`. -/
theorem C01_int32 (z : Int) (h : IntRange z) : Returns (ofInt32 z) z := ofInt32_spec h.1 h.2
example : IntRange (-2147483648) := by decide

/-- `BigInteger(uint32_t)` is exact on every `uint32_t`. -/
theorem C01_uint32 (n : Nat) (h : n < 2 ^ 32) : Returns (ofUInt32 n) n := ofUInt32_spec h
example : (4294967295 : Nat) < 2 ^ 32 := by decide

/-- `BigInteger(uint64_t)` is exact on every `uint64_t`. -/
theorem C01_uint64 (n : Nat) (h : n < 2 ^ 64) : Returns (ofUInt64 n) n := ofUInt64_spec h
example : (18446744073709551615 : Nat) < 2 ^ 64 := by decide

/-- `BigInteger(int64_t)` is exact on every `int64_t` but the least.  Missing from the full claim:
`INT64_MIN`, where the claim is false, see `C01_int64_min_is_undefined`. -/
theorem C01_int64_partial (z : Int) (h : LongRange z) (hmin : z ≠ -2 ^ 63) : Returns (ofInt64 z) z :=
  ofInt64_spec (by have := h.1; omega) h.2
example : LongRange (-9223372036854775807) ∧ (-9223372036854775807 : Int) ≠ -2 ^ 63 := by decide

/-- `BigInteger(INT64_MIN)` negates `INT64_MIN`: undefined behaviour. -/
theorem C01_int64_min_is_undefined : ofInt64 (-2 ^ 63) = .ub .signedOverflow := by rfl

/-- So `BigInteger(int64_t)` is exact precisely on the `int64_t` values other than `INT64_MIN`. -/
theorem C01_int64_exact_iff (z : Int) (h : LongRange z) : Returns (ofInt64 z) z ↔ z ≠ -2 ^ 63 := by
  constructor
  · rintro ⟨b, hb, -⟩ rfl
    rw [C01_int64_min_is_undefined] at hb; cases hb
  · exact C01_int64_partial z h
example : LongRange (-2 ^ 63) := by decide

/-! ### C43 magnitude constructor -/

/-- `BigInteger(words, negative)` denotes plus or minus the value of the words, whatever
redundant zero words there are. -/
theorem C43_magnitude (ws : List Nat) (hw : WordsOk ws) (hl : ws.length < 2 ^ 31) (negative : Bool) :
    Returns (ofMagnitude ws negative) (if negative then -(val ws : Int) else val ws) :=
  ofMagnitude_spec hw hl negative
example : WordsOk [1, 0, 7, 0, 0] ∧ [1, 0, 7, 0, 0].length < 2 ^ 31 := by decide

/-! ### C02 one representation per integer -/

/-- Two canonical objects that stand for the same integer are the same object state. -/
theorem C02_unique (a b : BigInt) (ha : a.Valid) (hb : b.Valid) (h : a.toInt = b.toInt) : a = b :=
  BigInt.Denotes.unique (z := b.toInt) ⟨ha, h⟩ ⟨hb, rfl⟩
example : neg3.Valid := neg3_denotes.1

/-- Every integer has a canonical object. -/
theorem C02_exists (z : Int) : ∃ b : BigInt, b.Denotes z := by
  by_cases hz : -2147483648 < z ∧ z < 2147483648
  · exact ⟨_, BigInt.denotes_small hz.1 hz.2⟩
  obtain ⟨ws, hw, hv⟩ : ∃ ws, WordsOk ws ∧ val ws = z.natAbs := by
    clear hz
    generalize z.natAbs = n
    induction n using Nat.strong_induction_on with
    | _ n ih =>
      rcases Nat.eq_zero_or_pos n with rfl | hn
      · exact ⟨[], wordsOk_nil, rfl⟩
      · obtain ⟨ws, hw, hv⟩ := ih (n / 4294967296) (Nat.div_lt_self hn (by decide))
        exact ⟨n % 4294967296 :: ws, wordsOk_cons.2 ⟨Nat.mod_lt _ (by decide), hw⟩, by
          rw [val_cons, hv]; exact Nat.mod_add_div n _⟩
  have ht := val_take_trimLen ws
  refine ⟨⟨if z < 0 then -1 else 1, ws.take (trimLen ws)⟩, BigInt.denotes_big (by split_ifs <;> simp) ?_
    (hw.take _) (getLast_take_trimLen ws) (by omega) (by rw [ht, hv]; split_ifs <;> omega)⟩
  intro e
  rw [e] at ht
  simp at ht
  omega

/-! ### C03 comparison -/

/-- `compare_to` is negative, zero, positive exactly as the integers compare. -/
theorem C03_compare_to (a b : BigInt) (x y : Int) (ha : a.Denotes x) (hb : b.Denotes y) (fa : a.Fits) (fb : b.Fits) :
    ∃ c, a.compareTo b = .ok c ∧ (c < 0 ↔ x < y) ∧ (c = 0 ↔ x = y) ∧ (c > 0 ↔ x > y) :=
  BigInt.compareTo_spec ha hb (Nat.lt_succ_of_lt fa) (Nat.lt_succ_of_lt fb)

/-- The six relational operators are the integer relations. -/
theorem C03_operators (a b : BigInt) (x y : Int) (ha : a.Denotes x) (hb : b.Denotes y) (fa : a.Fits) (fb : b.Fits) :
    a.lt b = .ok (decide (x < y)) ∧ a.le b = .ok (decide (x ≤ y)) ∧ a.gt b = .ok (decide (x > y)) ∧
    a.ge b = .ok (decide (x ≥ y)) ∧ a.equals b = .ok (decide (x = y)) ∧ a.ne b = .ok (decide (x ≠ y)) := by
  have fa' := Nat.lt_succ_of_lt fa
  have fb' := Nat.lt_succ_of_lt fb
  exact ⟨BigInt.lt_spec ha hb fa' fb', BigInt.le_spec ha hb fa' fb', BigInt.gt_spec ha hb fa' fb',
    BigInt.ge_spec ha hb fa' fb', BigInt.equals_spec ha hb, BigInt.ne_spec ha hb⟩

/-- `Max` and `Min` pick the larger and the smaller integer. -/
theorem C03_max_min (a b : BigInt) (x y : Int) (ha : a.Denotes x) (hb : b.Denotes y) (fa : a.Fits) (fb : b.Fits) :
    Returns (a.max b) (max x y) ∧ Returns (a.min b) (min x y) :=
  ⟨BigInt.max_spec ha hb (Nat.lt_succ_of_lt fa) (Nat.lt_succ_of_lt fb),
   BigInt.min_spec ha hb (Nat.lt_succ_of_lt fa) (Nat.lt_succ_of_lt fb)⟩

example : neg3.Denotes (-18446744103774322693) ∧ pos2.Denotes 38654705667 ∧ neg3.Fits ∧ pos2.Fits :=
  ⟨neg3_denotes, pos2_denotes, neg3_fits, pos2_fits⟩
example : neg3.lt pos2 = .ok true :=
  (C03_operators _ _ _ _ neg3_denotes pos2_denotes neg3_fits pos2_fits).1

/-! ### C04 hash -/

/-- Objects that `==` accepts have the same hash code. -/
theorem C04_hash (a b : BigInt) (ha : a.Valid) (hb : b.Valid) (h : a.equals b = .ok true) :
    a.hashCode = b.hashCode := by
  rw [BigInt.equals_spec (x := a.toInt) (y := b.toInt) ⟨ha, rfl⟩ ⟨hb, rfl⟩] at h
  rw [C02_unique a b ha hb (by simpa using h)]
example : neg3.equals neg3 = .ok true := BigInt.equals_spec neg3_denotes neg3_denotes

/-! ### C07 negation, absolute value, sign -/

theorem C07_negate (a : BigInt) (x : Int) (ha : a.Denotes x) : Returns a.neg (-x) := BigInt.neg_spec ha
theorem C07_plus (a : BigInt) (x : Int) (ha : a.Denotes x) : Returns a.plus x := BigInt.plus_spec ha
theorem C07_abs (a : BigInt) (x : Int) (ha : a.Denotes x) (fa : a.Fits) : Returns a.abs |x| :=
  BigInt.abs_spec ha (Nat.lt_succ_of_lt fa)
/-- `sign()` is -1, 0 or 1. -/
theorem C07_sign (a : BigInt) (x : Int) (ha : a.Denotes x) :
    a.signum = .ok (if x < 0 then -1 else if x = 0 then 0 else 1) := by
  rw [BigInt.signum_spec ha]
  congr 1
  rcases lt_trichotomy x 0 with h | rfl | h
  · rw [if_pos h, Int.sign_eq_neg_one_of_neg h]
  · rfl
  · rw [if_neg (by omega), if_neg (by omega), Int.sign_eq_one_of_pos h]
example : neg3.Denotes (-18446744103774322693) ∧ neg3.Fits := ⟨neg3_denotes, neg3_fits⟩

/-! ### C08 increment and decrement -/

/-- `++a` and `--a` update the object by one and return it. -/
theorem C08_prefix (a : BigInt) (x : Int) (ha : a.Denotes x) (fa : a.Fits) :
    Returns a.inc (x + 1) ∧ Returns a.dec (x - 1) :=
  ⟨BigInt.add_spec ha denotes_one fa (by decide), BigInt.sub_spec ha denotes_one fa (by decide)⟩

/-- `a++` and `a--` update the object by one; unlike the built-in operators they return the
updated value (the code returns `*this`). -/
theorem C08_postfix (a : BigInt) (x : Int) (ha : a.Denotes x) (fa : a.Fits) :
    (∃ obj ret, a.postInc = .ok (obj, ret) ∧ obj.Denotes (x + 1) ∧ ret.Denotes (x + 1)) ∧
    (∃ obj ret, a.postDec = .ok (obj, ret) ∧ obj.Denotes (x - 1) ∧ ret.Denotes (x - 1)) := by
  obtain ⟨⟨i, hi, di⟩, ⟨d, hd, dd⟩⟩ := C08_prefix a x ha fa
  exact ⟨⟨i, i, by simp [BigInt.postInc, hi], di, di⟩, ⟨d, d, by simp [BigInt.postDec, hd], dd, dd⟩⟩
example : neg3.Denotes (-18446744103774322693) ∧ neg3.Fits := ⟨neg3_denotes, neg3_fits⟩

/-! ### C61 the value of a postfix operator -/

/-- What is asked of `a++` and `a--`: the object changes by one and the expression has the value the
object had before, as with the built-in operators. -/
def PostfixAsBuiltIn (post : BigInt → Res (BigInt × BigInt)) (step : Int) (a : BigInt) (x : Int) : Prop :=
  ∃ obj ret, post a = .ok (obj, ret) ∧ obj.Denotes (x + step) ∧ ret.Denotes x

/-- The object is updated as it should be. -/
theorem C61_postfix_partial (a : BigInt) (x : Int) (ha : a.Denotes x) (fa : a.Fits) :
    (∃ obj ret, a.postInc = .ok (obj, ret) ∧ obj.Denotes (x + 1)) ∧
    (∃ obj ret, a.postDec = .ok (obj, ret) ∧ obj.Denotes (x - 1)) := by
  obtain ⟨⟨o, r, h1, h2, -⟩, ⟨p, s, h3, h4, -⟩⟩ := C08_postfix a x ha fa
  exact ⟨⟨o, r, h1, h2⟩, ⟨p, s, h3, h4⟩⟩

/-- The value of the expression is wrong for every object. -/
theorem C61_never (a : BigInt) (x : Int) (ha : a.Denotes x) (fa : a.Fits) :
    ¬ PostfixAsBuiltIn BigInt.postInc 1 a x ∧ ¬ PostfixAsBuiltIn BigInt.postDec (-1) a x := by
  obtain ⟨⟨o, r, h1, -, h2⟩, ⟨p, s, h3, -, h4⟩⟩ := C08_postfix a x ha fa
  constructor
  · rintro ⟨o', r', e1, -, e2⟩
    obtain ⟨-, rfl⟩ := Prod.mk.inj (Res.ok.inj (h1.symm.trans e1))
    have := h2.2.symm.trans e2.2
    omega
  · rintro ⟨o', r', e1, -, e2⟩
    obtain ⟨-, rfl⟩ := Prod.mk.inj (Res.ok.inj (h3.symm.trans e1))
    have := h4.2.symm.trans e2.2
    omega

/-- `a = 5; b = a++;` leaves 6 in `b`. -/
theorem C61_refuted : ¬ ∀ (a : BigInt) (x : Int), a.Denotes x → a.Fits → PostfixAsBuiltIn BigInt.postInc 1 a x :=
  fun h => (C61_never ⟨5, []⟩ 5 (BigInt.denotes_small (by decide) (by decide)) (by decide)).1
    (h _ 5 (BigInt.denotes_small (by decide) (by decide)) (by decide))
example : (⟨5, []⟩ : BigInt).postInc = .ok (⟨6, []⟩, ⟨6, []⟩) := by
  rename_i c; obtain ⟨d, s⟩ := c; cases d <;> cases s <;> decide +kernel
example : ¬ PostfixAsBuiltIn BigInt.postInc 1 neg3 (-18446744103774322693) := (C61_never _ _ neg3_denotes neg3_fits).1
example : ∃ obj ret, neg3.postInc = .ok (obj, ret) ∧ obj.Denotes (-18446744103774322692) :=
  (C61_postfix_partial _ _ neg3_denotes neg3_fits).1

/-! ### instances of the remaining theorems -/

example : Returns (ofInt64 (-9223372036854775807)) (-9223372036854775807) := C01_int64_partial _ (by decide) (by decide)
example : ∃ c, neg3.compareTo pos2 = .ok c ∧ (c < 0 ↔ (-18446744103774322693 : Int) < 38654705667) ∧
    (c = 0 ↔ (-18446744103774322693 : Int) = 38654705667) ∧ (c > 0 ↔ (-18446744103774322693 : Int) > 38654705667) :=
  C03_compare_to _ _ _ _ neg3_denotes pos2_denotes neg3_fits pos2_fits
example : Returns (neg3.max pos2) 38654705667 ∧ Returns (neg3.min pos2) (-18446744103774322693) :=
  C03_max_min _ _ _ _ neg3_denotes pos2_denotes neg3_fits pos2_fits
example : Returns neg3.neg 18446744103774322693 ∧ Returns neg3.plus (-18446744103774322693) ∧ Returns neg3.abs 18446744103774322693 ∧
    neg3.signum = .ok (-1) :=
  ⟨C07_negate _ _ neg3_denotes, C07_plus _ _ neg3_denotes, C07_abs _ _ neg3_denotes neg3_fits, C07_sign _ _ neg3_denotes⟩
example : Returns neg3.inc (-18446744103774322692) ∧ Returns neg3.dec (-18446744103774322694) :=
  C08_prefix _ _ neg3_denotes neg3_fits
example : Returns (ofMagnitude [1, 0, 7, 0, 0] true) (-129127208515966861313) :=
  C43_magnitude [1, 0, 7, 0, 0] (by decide) (by decide) true

end BigIntegerCpp
