import Verif.Props.Arith
import Verif.Props.Bits
import Verif.Props.Bytes
import Verif.Props.Convert
import Verif.Props.Ends
import Verif.Props.Pow
import Verif.Props.Python
import Verif.Props.PythonObject
import Verif.Props.Text
/-
For the properties that are false of the code on some arguments: the exact set of arguments on which
they hold.  (C01, C22, C23 and C50 have such a theorem beside their other theorems.)
-/
set_option linter.unusedSectionVars false
namespace BigIntegerCpp
open Samples
variable [Cfg]

private theorem returns_unique {r : Res BigInt} {x y : Int} (h : Returns r x) (h' : Returns r y) : x = y := by
  obtain ⟨b, h1, h2⟩ := h
  obtain ⟨c, h3, h4⟩ := h'
  obtain rfl : b = c := by rw [h1] at h3; exact Res.ok.inj h3
  exact h2.2.symm.trans h4.2

/-- C13: `div_rem` is right exactly outside the case named. -/
theorem C13_exact_iff (a b : BigInt) (x y : Int) (ha : a.Denotes x) (hb : b.Denotes y) (hy : y ≠ 0) (fa : a.Fits) :
    (∃ q r, a.divRem b = .ok (q, r) ∧ q.Denotes (x.tdiv y) ∧ r.Denotes (x.tmod y)) ↔
      ¬ (2 ^ 31 ≤ |x| ∧ |y| < 2 ^ 31 ∧ x.tmod y < 0) := by
  refine ⟨?_, C13_div_rem_partial a b x y ha hb hy fa⟩
  rintro ⟨q, r, h1, h2, h3⟩ ⟨k1, k2, k3⟩
  obtain ⟨q', r', h4, h5, h6⟩ := C13_wrong_remainder a b x y ha hb hy fa k1 k2 k3
  obtain ⟨rfl, rfl⟩ : q = q' ∧ r = r' := by rw [h1] at h4; exact Prod.mk.inj (Res.ok.inj h4)
  have := h3.2.symm.trans h6.2
  omega
example : ∃ q r, neg3.divRem pos2 = .ok (q, r) ∧ q.Denotes ((-18446744103774322693 : Int).tdiv 38654705667) ∧
    r.Denotes ((-18446744103774322693 : Int).tmod 38654705667) :=
  (C13_exact_iff _ _ _ _ neg3_denotes pos2_denotes (by decide) neg3_fits).2 (by decide)
example : ¬ ∃ q r, neg3.divRem ⟨10, []⟩ = .ok (q, r) ∧ q.Denotes ((-18446744103774322693 : Int).tdiv 10) ∧
    r.Denotes ((-18446744103774322693 : Int).tmod 10) := fun h =>
  (C13_exact_iff _ _ _ _ neg3_denotes (BigInt.denotes_small (by decide) (by decide)) (by decide) neg3_fits).1 h (by decide)

/-- C16: below `2^992` a modular power is right exactly unless the modulus is `int`-sized and the
remainder negative. -/
theorem C16_exact_iff (a e m : BigInt) (x z : Int) (n : Nat) (ha : a.Denotes x) (he : e.Denotes n) (hm : m.Denotes z)
    (fa : a.Fits) (hz : z ≠ 0) (hz2 : |z| < 2 ^ 992) :
    Returns (a.modPow e m) ((x ^ n).tmod z) ↔ ¬ (|z| < 2 ^ 31 ∧ (x ^ n).tmod z < 0) := by
  refine ⟨fun h h' => ?_, C16_mod_pow_partial a e m x z n ha he hm fa hz hz2⟩
  have := returns_unique h (C16_wrong_sign a e m x z n ha he hm fa hz h'.1 h'.2)
  omega
example : Returns (small.modPow ⟨3, []⟩ ⟨10, []⟩) (((-42 : Int) ^ 3).tmod 10) ↔ False :=
  (C16_exact_iff _ _ _ (-42) 10 3 small_denotes (BigInt.denotes_small (by decide) (by decide)) (BigInt.denotes_small (by decide) (by decide))
    small_fits (by decide) (by decide +kernel)).trans (by decide)

/-- C17: a zero modulus is refused exactly unless the value is `int`-sized and the exponent is `2^32`
or more. -/
theorem C17_exact_iff (a e m : BigInt) (x : Int) (n : Nat) (ha : a.Denotes x) (he : e.Denotes n) (hm : m.Denotes 0) (fa : a.Fits) :
    a.modPow e m = .throw .divideByZero ↔ ¬ (|x| < 2 ^ 31 ∧ 2 ^ 32 ≤ n) := by
  constructor
  · rintro h ⟨h1, h2⟩
    rw [C17_unchecked a e m x n ha he hm fa h1 h2] at h
    cases h
  · intro h
    refine C17_zero_modulus_partial a e m x n ha he hm fa ?_
    by_contra hc
    rw [not_or, not_le, not_lt] at hc
    exact h hc
example : neg3.modPow pos2 zeroInt = .throw .divideByZero :=
  (C17_exact_iff _ _ _ _ 38654705667 neg3_denotes pos2_denotes denotes_zero neg3_fits).2 (by decide)
example : small.modPow pos2 zeroInt ≠ .throw .divideByZero := fun h =>
  (C17_exact_iff _ _ _ _ 38654705667 small_denotes pos2_denotes denotes_zero small_fits).1 h (by decide)

/-- C25: bytes are read rightly exactly unless the letter of C++17 is followed and a negative number
is given in four bytes or fewer. -/
theorem C25_exact_iff (v : List Nat) (hb : BytesOk v) (hl : v.length < 2 ^ 31) (isUnsigned isBigEndian : Bool) :
    Returns (ofBytes v isUnsigned isBigEndian) (bytesValue isUnsigned isBigEndian v) ↔
      ¬ (Cfg.strictShift = true ∧ bytesValue isUnsigned isBigEndian v < 0 ∧ v.length ≤ 4) := by
  constructor
  · rintro ⟨b, h, -⟩ ⟨h1, h2, h3⟩
    rw [C25_strict_shift v hb isUnsigned isBigEndian h1 h2 h3] at h
    cases h
  · intro h
    have := ofBytes_spec v (by simpa using hl) hb isUnsigned isBigEndian
    rwa [if_neg h] at this
example : Returns (ofBytes [0x85, 0xff, 0xff, 0xff, 0xff, 0xff] false false) (-123) :=
  (C25_exact_iff _ (by decide) (by decide) false false).2 fun h => absurd h.2.2 (by decide)
example (h : Cfg.strictShift = true) : ¬ Returns (ofBytes [0x85, 0xff] false false) (-123) := fun h' =>
  (C25_exact_iff [0x85, 0xff] (by decide) (by decide) false false).1 h' ⟨h, by decide, by decide⟩

/-- C29: with the default arguments the explicit-mode overload does what `to_byte_array()` does
exactly for the allocating mode on numbers other than zero. -/
theorem C29_exact_iff (a : BigInt) (x : Int) (ha : a.Denotes x) (hl : a.bits.length < 2 ^ 29) (mode : GetBytesMode) :
    (∃ v, a.toBytesMode mode false false false = .ok v) ↔ mode = .allocateArray ∧ x ≠ 0 := by
  constructor
  · rintro ⟨v, h⟩
    by_contra hc
    rw [C29_null_pointer a x ha hl mode (by cases mode <;> simp at hc ⊢; exact hc)] at h
    cases h
  · rintro ⟨rfl, h0⟩
    obtain ⟨v, h, -⟩ := C29_explicit_mode_partial a x ha h0 hl
    exact ⟨_, h⟩
example : (∃ v, neg3.toBytesMode .count false false false = .ok v) ↔ False :=
  (C29_exact_iff _ _ neg3_denotes (by decide) .count).trans (by simp)

/-- C30: `to_string` is right exactly on the numbers that do not misfire and have at most INT_MAX/10
words. -/
theorem C30_exact_iff (a : BigInt) (x : Int) (ha : a.Denotes x) (fa : a.Fits) :
    a.toStr = .ok (toString x).toList ↔ ¬ TextMisfires x ∧ a.bits.length ≤ 2147483647 / 10 := by
  constructor
  · intro h
    by_cases hl : a.bits.length ≤ 2147483647 / 10
    · refine ⟨fun hm => ?_, hl⟩
      rw [C30_misfire a x ha hl hm] at h
      cases h
    · rw [C30_too_long a fa (not_le.1 hl)] at h
      cases h
  · exact fun ⟨h1, h2⟩ => C30_to_string_partial a x ha h2 h1
example : neg3.toStr = .ok (toString (-18446744103774322693 : Int)).toList :=
  (C30_exact_iff _ _ neg3_denotes neg3_fits).2 (by decide +kernel)

/-- C32: the round trip through text works for the same numbers. -/
theorem C32_exact_iff (a : BigInt) (x : Int) (ha : a.Denotes x) (fa : a.Fits) :
    (∃ s, a.toStr = .ok s ∧ BigInt.parse s = .ok a) ↔ ¬ TextMisfires x ∧ a.bits.length ≤ 2147483647 / 10 := by
  constructor
  · rintro ⟨s, h, -⟩
    by_cases hl : a.bits.length ≤ 2147483647 / 10
    · refine ⟨fun hm => ?_, hl⟩
      rw [C30_misfire a x ha hl hm] at h
      cases h
    · rw [C30_too_long a fa (not_le.1 hl)] at h
      cases h
  · exact fun ⟨h1, h2⟩ => C32_text_round_trip_partial a x ha h2 h1
example : ∃ s, neg3.toStr = .ok s ∧ BigInt.parse s = .ok neg3 := (C32_exact_iff _ _ neg3_denotes neg3_fits).2 (by decide +kernel)
example : ¬ ∃ s, BigInt.toStr ⟨-1, [1569325056, 23283064]⟩ = .ok s ∧ BigInt.parse s = .ok ⟨-1, [1569325056, 23283064]⟩ := fun h =>
  absurd ((C32_exact_iff _ (-100000000000000000) (BigInt.denotes_big (.inr rfl) (by decide) (by decide) (by decide) (by decide) (by decide))
    (by decide)).1 h) (by decide +kernel)

open Classical in
/-- C33: the answer of `try_parse` says whether the text is a number exactly when it is one. -/
theorem C33_exact_iff (s : List Char) (result : BigInt) (hs : s.length < 2 ^ 34) :
    (∃ b, BigInt.tryParse s result = .ok (decide (WellFormed s), b)) ↔ WellFormed s := by
  constructor
  · rintro ⟨b, h⟩
    simpa using C33_never_false s result b _ h
  · intro h
    obtain ⟨b, h1, -⟩ := C33_always_true s result hs
    exact ⟨b, by rw [h1, decide_eq_true h]⟩
example : WellFormed "-12".toList := ⟨"12".toList, .inr (.inl rfl), by decide, by decide⟩
open Classical in
example : (∃ b, BigInt.tryParse "-12".toList zeroInt = .ok (decide (WellFormed "-12".toList), b)) :=
  (C33_exact_iff _ _ (by decide)).2 ⟨"12".toList, .inr (.inl rfl), by decide, by decide⟩

/-- C34: the conversion to `int` is right exactly off INT_MIN. -/
theorem C34_int_exact_iff (a : BigInt) (x : Int) (ha : a.Denotes x) :
    (a.toInt32 = if IntRange x then .ok x else .throw .overflowError) ↔ x ≠ -2 ^ 31 := by
  refine ⟨?_, C34_to_int_partial a x ha⟩
  rintro h rfl
  rw [C34_int_min_is_undefined a ha, if_pos (by decide)] at h
  cases h
example : pos2.toInt32 = if IntRange 38654705667 then .ok 38654705667 else .throw .overflowError :=
  (C34_int_exact_iff _ _ pos2_denotes).2 (by decide)

/-- C34: the conversion to `long` is right exactly off LONG_MIN. -/
theorem C34_long_exact_iff (a : BigInt) (x : Int) (ha : a.Denotes x) (fa : a.Fits) :
    (a.toLong = if LongRange x then .ok x else .throw .overflowError) ↔ x ≠ -2 ^ 63 := by
  refine ⟨?_, C34_to_long_partial a x ha fa⟩
  rintro h rfl
  rw [C34_long_min_is_undefined a ha fa, if_pos (by decide)] at h
  cases h
example : pos2.toLong = if LongRange 38654705667 then .ok 38654705667 else .throw .overflowError :=
  (C34_long_exact_iff _ _ pos2_denotes pos2_fits).2 (by decide)

/-- Every `int` has four bytes. -/
private theorem four_bytes {x : Int} (h1 : -2 ^ 31 ≤ x) (h2 : x < 0) (be : Bool) :
    ∃ w, BytesOk w ∧ w ≠ [] ∧ w.length = 4 ∧ bytesValue false be w = x := by
  have key : ∀ v, v.length = 4 → BytesOk v → signedVal 8 v = x →
      ∃ w, BytesOk w ∧ w ≠ [] ∧ w.length = 4 ∧ bytesValue false be w = x := by
    intro v hl hb hv
    refine ⟨if be then v.reverse else v, ?_, ?_, ?_, ?_⟩
    · cases be
      · exact hb
      · exact fun b hb' => hb b (by simpa using hb')
    · rintro h
      have := congrArg List.length h
      cases be <;> simp [hl] at this
    · cases be <;> simpa using hl
    · unfold bytesValue; cases be <;> simpa using hv
  refine key (lowBytes 4 (x + 2 ^ 32).toNat) (lowBytes_length _ _) (lowBytes_ok _ _) ?_
  have hval := lowBytes_val 4 (x + 2 ^ 32).toNat
  have htop := lowBytes_succ 3 (x + 2 ^ 32).toNat
  obtain ⟨u, hu⟩ : ∃ u : Nat, x = (u : Int) - 2 ^ 32 := ⟨(x + 2 ^ 32).toNat, by omega⟩
  have hu' : (x + 2 ^ 32).toNat = u := by omega
  rw [hu'] at hval htop ⊢
  unfold signedVal
  rw [if_pos, show (2 : Nat) ^ 8 = 256 by rfl, hval, lowBytes_length]
  · norm_num at *; omega
  · rw [htop, List.getLast?_append]
    simp only [List.getLast?_singleton, Option.some_or, Option.getD_some]
    norm_num at *
    omega

/-- C26: the byte round trip works exactly unless the letter of C++17 is followed and the number is
a negative `int`. -/
theorem C26_exact_iff (a : BigInt) (x : Int) (ha : a.Denotes x) (hl : a.bits.length < 2 ^ 29) (be : Bool) :
    (∃ v, a.toBytes false be = .ok v ∧ ofBytes v false be = .ok a) ↔ ¬ (Cfg.strictShift = true ∧ -2 ^ 31 ≤ x ∧ x < 0) := by
  constructor
  · rintro ⟨v, h1, h2⟩ ⟨k1, k2, k3⟩
    obtain ⟨v', e1, ⟨e2, -⟩, e3, e4, -, -⟩ := C28_minimal_bytes a x ha hl false be (by simp)
    obtain rfl : v = v' := by rw [h1] at e1; exact Res.ok.inj e1
    obtain ⟨w, w1, w2, w3, w4⟩ := four_bytes k2 k3 be
    have := e4 w w1 w2 w4
    rw [C25_strict_shift v e2 false be k1 (by omega) (by omega)] at h2
    cases h2
  · intro h
    by_cases hs : Cfg.strictShift = true
    · obtain ⟨v, h1, -, h2⟩ := C26_signed_bytes_round_trip_partial a x ha hl be (by by_contra hc; exact h ⟨hs, by omega⟩)
      exact ⟨v, h1, h2⟩
    · obtain ⟨v, h1, -, h2⟩ := C26_signed_bytes_round_trip a x ha hl be (by simpa using hs)
      exact ⟨v, h1, h2⟩
example (h : Cfg.strictShift = true) : ¬ ∃ v, small.toBytes false true = .ok v ∧ ofBytes v false true = .ok small := fun h' =>
  (C26_exact_iff _ _ small_denotes (by decide) true).1 h' ⟨h, by decide, by decide⟩

omit [Cfg] in
private theorem misfire_bound {x : Int} (hx : InRange x) {n : Nat} (h : ShiftMisfires x n) : x / 2 ^ n ≤ -1 ∧ n < 2 ^ 31 := by
  obtain ⟨h0, -, L, hL, h1, h2⟩ := h
  have hp : (0 : Int) < 2 ^ n := by positivity
  have e : (2 : Int) ^ (n + 32 * L) = 2 ^ n * 2 ^ (32 * L) := pow_add _ _ _
  have h4 : (2 : Int) ^ 32 ≤ 2 ^ (32 * L) := pow_le_pow_right₀ (by decide) (by omega)
  have h3 : (2 : Int) ^ n * 2 ≤ 2 ^ n * 2 ^ (32 * L) := Int.mul_le_mul_of_nonneg_left (le_trans (by norm_num) h4) hp.le
  constructor
  · have : x / 2 ^ n < 0 := Int.ediv_neg_of_neg_of_pos (by omega) hp
    omega
  · by_contra hc
    have h5 : x.natAbs < 2 ^ n := lt_of_lt_of_le hx (Nat.pow_le_pow_right (by decide) (le_trans (by decide) (not_lt.1 hc)))
    have h6 : ((2 ^ n : Nat) : Int) = 2 ^ n := by push_cast; rfl
    omega

/-- C45: `l << r` is right exactly unless a `BigInteger` count is `-2^31` or the shift is one of the
misfiring right shifts. -/
theorem C45_shift_left_exact_iff (l r : PyVal) (x y : Int) (hl : l.Stands x) (hr : r.Stands y) (hlr : Bound l r)
    (hx : InRange x) (hy : IntRange y) (hs : Cfg.strictShift = false) :
    Answers l (pyShl l r) (shiftInt x y) ↔
      ¬ (y < 0 ∧ ShiftMisfires x (-y).toNat) ∧ ¬ ((∃ b, r = .big b) ∧ y = -2 ^ 31) := by
  constructor
  · intro h
    have hmin : ¬ ((∃ b, r = .big b) ∧ y = -2 ^ 31) := by
      rintro ⟨⟨b, rfl⟩, rfl⟩
      have hb := C34_int_min_is_undefined b hr
      cases l with
      | big a =>
        obtain ⟨c, h, -⟩ := h
        simp [pyShl, hb] at h
      | int n =>
        obtain rfl : n.value = x := hl
        obtain ⟨o, h1, h2⟩ := C44_of_int n _ (by norm_num) hx hs
        change pyShl _ _ = _ at h
        simp [pyShl, hb, h1] at h
    refine ⟨?_, hmin⟩
    rintro ⟨hneg, hm⟩
    obtain ⟨k1, k2⟩ := misfire_bound hx hm
    have e : y.natAbs = (-y).toNat := by omega
    have hval : shiftInt x y ≠ 0 := by
      unfold shiftInt; rw [if_neg (by omega)]; omega
    have key : ∀ a : BigInt, a.Denotes x → Returns (a.shl y) 0 := fun a ha =>
      C23_misfire a x y ha hy (by norm_num; omega) hneg (by have := hx.length ha; norm_num; omega) (by rwa [e])
    cases l with
    | big a =>
      obtain ⟨c, h, hc⟩ := h
      obtain ⟨d, hd, hd0⟩ := key a hl
      have : c = d := by
        cases r with
        | big b =>
          simp only [pyShl, C34_to_int_partial b y hr (fun h => hmin ⟨⟨b, rfl⟩, h⟩), if_pos hy, Res.ok_bind, hd] at h
          simpa using h.symm
        | int n =>
          obtain rfl : n.value = y := hr
          simp only [pyShl, castInt, if_pos (show -2147483648 ≤ n.value ∧ n.value < 2147483648 from hy), Res.ok_bind, hd] at h
          simpa using h.symm
      subst this
      exact hval (hc.2.symm.trans hd0.2)
    | int n =>
      cases r with
      | int m => exact hlr
      | big b =>
        obtain rfl : n.value = x := hl
        obtain ⟨o, h1, h2⟩ := C44_of_int n _ (by norm_num) hx hs
        obtain ⟨d, hd, hd0⟩ := key o h2
        change pyShl _ _ = _ at h
        have hp : toPyInt d = .ok 0 := C44_to_int d 0 hd0 (by rw [hd0.bits_nil.2 (by norm_num)]; norm_num)
        simp only [pyShl, C34_to_int_partial b y hr (fun h => hmin ⟨⟨b, rfl⟩, h⟩), if_pos hy, Res.ok_bind, h1, hd, hp] at h
        exact hval (by simpa using h.symm)
  · rintro ⟨h1, h2⟩
    exact C45_shift_left_partial l r x y hl hr hlr hx hy hs (fun h h' => h1 ⟨h, h'⟩) (fun h h' => h2 ⟨h, h'⟩)
example (hs : Cfg.strictShift = false) : ¬ Answers (.int ⟨5, false, nofun⟩) (pyShl (.int ⟨5, false, nofun⟩) (.big ⟨-1, [2147483648]⟩))
    (shiftInt 5 (-2 ^ 31)) := fun h =>
  ((C45_shift_left_exact_iff (.int ⟨5, false, nofun⟩) (.big ⟨-1, [2147483648]⟩) 5 (-2 ^ 31) rfl
    (BigInt.denotes_big (.inr rfl) (by decide) (by decide) (by decide) (by decide) (by decide)) trivial (inRange_small (by decide))
    (by decide) hs).1 h).2 ⟨⟨_, rfl⟩, rfl⟩

/-- C45: `l >> r` likewise. -/
theorem C45_shift_right_exact_iff (l r : PyVal) (x y : Int) (hl : l.Stands x) (hr : r.Stands y) (hlr : Bound l r)
    (hx : InRange x) (hy : IntRange y) (hs : Cfg.strictShift = false) :
    Answers l (pyShr l r) (shiftInt x (-y)) ↔
      ¬ (0 < y ∧ ShiftMisfires x y.toNat) ∧ ¬ ((∃ b, r = .big b) ∧ y = -2 ^ 31) := by
  constructor
  · intro h
    have hmin : ¬ ((∃ b, r = .big b) ∧ y = -2 ^ 31) := by
      rintro ⟨⟨b, rfl⟩, rfl⟩
      have hb := C34_int_min_is_undefined b hr
      cases l with
      | big a =>
        obtain ⟨c, h, -⟩ := h
        simp [pyShr, hb] at h
      | int n =>
        obtain rfl : n.value = x := hl
        obtain ⟨o, h1, h2⟩ := C44_of_int n _ (by norm_num) hx hs
        change pyShr _ _ = _ at h
        simp [pyShr, hb, h1] at h
    refine ⟨?_, hmin⟩
    rintro ⟨hpos, hm⟩
    obtain ⟨k1, k2⟩ := misfire_bound hx hm
    have hval : shiftInt x (-y) ≠ 0 := by
      unfold shiftInt; rw [if_neg (by omega), neg_neg]; omega
    have key : ∀ a : BigInt, a.Denotes x → Returns (a.shr y) 0 := fun a ha => by
      have := (C22_misfire a x y.toNat ha (by have := hx.length ha; norm_num; omega) hm).1
      rwa [Int.toNat_of_nonneg (by omega)] at this
    cases l with
    | big a =>
      obtain ⟨c, h, hc⟩ := h
      obtain ⟨d, hd, hd0⟩ := key a hl
      have : c = d := by
        cases r with
        | big b =>
          simp only [pyShr, C34_to_int_partial b y hr (fun h => hmin ⟨⟨b, rfl⟩, h⟩), if_pos hy, Res.ok_bind, hd] at h
          simpa using h.symm
        | int n =>
          obtain rfl : n.value = y := hr
          simp only [pyShr, castInt, if_pos (show -2147483648 ≤ n.value ∧ n.value < 2147483648 from hy), Res.ok_bind, hd] at h
          simpa using h.symm
      subst this
      exact hval (hc.2.symm.trans hd0.2)
    | int n =>
      cases r with
      | int m => exact hlr
      | big b =>
        obtain rfl : n.value = x := hl
        obtain ⟨o, h1, h2⟩ := C44_of_int n _ (by norm_num) hx hs
        obtain ⟨d, hd, hd0⟩ := key o h2
        change pyShr _ _ = _ at h
        have hp : toPyInt d = .ok 0 := C44_to_int d 0 hd0 (by rw [hd0.bits_nil.2 (by norm_num)]; norm_num)
        simp only [pyShr, C34_to_int_partial b y hr (fun h => hmin ⟨⟨b, rfl⟩, h⟩), if_pos hy, Res.ok_bind, h1, hd, hp] at h
        exact hval (by simpa using h.symm)
  · rintro ⟨h1, h2⟩
    exact C45_shift_right_partial l r x y hl hr hlr hx hy hs (fun h h' => h1 ⟨h, h'⟩) (fun h h' => h2 ⟨h, h'⟩)
example (hs : Cfg.strictShift = false) : ¬ Answers (.big ⟨-1, [1, 4294967295]⟩) (pyShr (.big ⟨-1, [1, 4294967295]⟩) (.int ⟨32, false, nofun⟩))
    (shiftInt (-18446744069414584321) (-32)) := fun h =>
  ((C45_shift_right_exact_iff (.big ⟨-1, [1, 4294967295]⟩) (.int ⟨32, false, nofun⟩) (-18446744069414584321) 32
    (BigInt.denotes_big (.inr rfl) (by decide) (by decide) (by decide) (by decide) (by decide)) rfl trivial
    (inRange_small (by decide)) (by decide) hs).1 h).1 ⟨by decide, by decide, by decide, 1, by decide, by decide, by decide⟩

/-- C45: `divmod(l, r)` is right exactly outside the faults of `div_rem` and, if `l` is an `int`, of
`to_string`. -/
theorem C45_divmod_exact_iff (l r : PyVal) (x y : Int) (hl : l.Stands x) (hr : r.Stands y) (hlr : Bound l r)
    (hx : InRange x) (hy : InRange y) (hy0 : y ≠ 0) (hs : Cfg.strictShift = false) :
    AnswersPair l (pyDivmod l r) (x.tdiv y) (x.tmod y) ↔
      ¬ (2 ^ 31 ≤ |x| ∧ |y| < 2 ^ 31 ∧ x.tmod y < 0) ∧
      ¬ ((∃ n, l = .int n) ∧ (TextMisfires (x.tdiv y) ∨ TextMisfires (x.tmod y))) := by
  have fits : ∀ {a : BigInt}, a.Denotes x → a.Fits := fun ha => by
    have := hx.length ha
    unfold BigInt.Fits
    omega
  have hqr : InRange (x.tdiv y) := lt_of_le_of_lt (by rw [Int.natAbs_tdiv]; exact Nat.div_le_self _ _) hx
  have hrr : InRange (x.tmod y) := lt_of_le_of_lt (by rw [Int.natAbs_tmod]; exact Nat.mod_le _ _) hx
  constructor
  · intro h
    cases l with
    | big a =>
      refine ⟨?_, fun h => by obtain ⟨⟨n, h⟩, -⟩ := h; cases h⟩
      rintro hc
      obtain ⟨q, t, h, hq, ht⟩ := h
      have main : ∀ b : BigInt, b.Denotes y → a.divRem b = .ok (q, t) → False := fun b hb h =>
        (C13_exact_iff a b x y hl hb hy0 (fits hl)).1 ⟨q, t, h, hq, ht⟩ hc
      cases r with
      | big b =>
        refine main b hr ?_
        dsimp only [pyDivmod] at h
        cases hd : a.divRem b <;> rw [hd] at h <;> simp at h
        rw [h]
      | int n =>
        obtain rfl : n.value = y := hr
        obtain ⟨o, h1, h2⟩ := C44_of_int n _ (by norm_num) hy hs
        refine main o h2 ?_
        dsimp only [pyDivmod] at h
        rw [h1, Res.ok_bind] at h
        cases hd : a.divRem o <;> rw [hd] at h <;> simp at h
        rw [h]
    | int n =>
      cases r with
      | int m => exact hlr.elim
      | big b =>
        obtain rfl : n.value = x := hl
        obtain ⟨o, h1, h2⟩ := C44_of_int n _ (by norm_num) hx hs
        change pyDivmod _ _ = _ at h
        dsimp only [pyDivmod] at h
        rw [h1, Res.ok_bind] at h
        by_cases hc : 2 ^ 31 ≤ |n.value| ∧ |y| < 2 ^ 31 ∧ n.value.tmod y < 0
        · exfalso
          obtain ⟨q, t, e1, e2, e3⟩ := C13_wrong_remainder o b _ y h2 hr hy0 (fits h2) hc.1 hc.2.1 hc.2.2
          have lq := hqr.length e2
          have hlt : (n.value.tmod y).natAbs < y.natAbs := by
            rw [Int.natAbs_tmod]; exact Nat.mod_lt _ (by omega)
          have hy31 : y.natAbs < 2 ^ 31 := by
            have := hc.2.1; rw [Int.abs_eq_natAbs] at this; omega
          have ht : t.toStr = .ok (toString (n.value.tmod y + 2 ^ 32)).toList :=
            C30_to_string_nonneg t _ e3 (by
              have := e3.length_le (n := 1) (by omega)
              omega) (by omega)
          have tv := textValue_toString (n.value.tmod y + 2 ^ 32)
          generalize (toString (n.value.tmod y + 2 ^ 32)).toList = T at ht tv
          rw [e1, Res.ok_bind] at h
          dsimp only at h
          rw [ht] at h
          cases hq : q.toStr <;> rw [hq] at h <;> simp at h
          have := h.2
          omega
        · refine ⟨hc, ?_⟩
          rintro ⟨-, hm⟩
          obtain ⟨q, t, e1, e2, e3⟩ := C13_div_rem_partial o b _ y h2 hr hy0 (fits h2) hc
          have lq := hqr.length e2
          have lr := hrr.length e3
          rw [e1, Res.ok_bind] at h
          dsimp only at h
          rcases hm with hm | hm
          · rw [C30_misfire q _ e2 (by norm_num; omega) hm] at h
            simp at h
          · rw [C30_misfire t _ e3 (by norm_num; omega) hm] at h
            cases hq : q.toStr <;> rw [hq] at h <;> simp at h
  · rintro ⟨h1, h2⟩
    exact C45_divmod_partial l r x y hl hr hlr hx hy hy0 hs h1
      (fun h => ⟨fun h' => h2 ⟨h, .inl h'⟩, fun h' => h2 ⟨h, .inr h'⟩⟩)
example (hs : Cfg.strictShift = false) : ¬ AnswersPair (.int ⟨-10 ^ 17, false, nofun⟩) (pyDivmod (.int ⟨-10 ^ 17, false, nofun⟩) (.big ⟨1, []⟩))
    ((-10 ^ 17 : Int).tdiv 1) ((-10 ^ 17 : Int).tmod 1) := fun h =>
  ((C45_divmod_exact_iff (.int ⟨-10 ^ 17, false, nofun⟩) (.big ⟨1, []⟩) (-10 ^ 17) 1 rfl (BigInt.denotes_small (by decide) (by decide)) trivial
    (inRange_small (by decide)) (inRange_small (by decide)) (by decide) hs).1 h).2 ⟨⟨_, rfl⟩, .inl (by decide +kernel)⟩

/-- The Python conversion hands five bytes on, or drops the top one. -/
private theorem five_bytes (n : PyInt) (m : Nat) (hm : n.value = -(m : Int)) (h1 : 2 ^ 24 ≤ m) (h2 : m < 2 ^ 32) :
    toBigInteger n = if 2 ^ 24 < m ∧ m ≤ 2 ^ 31 then ofBytes (lowBytes 4 (2 ^ 40 - m)) false false
      else ofBytes (lowBytes 5 (2 ^ 40 - m)) false false := by
  have hz : ¬ n.isZeroObject = true := fun h => by have := n.zero_object h; omega
  have hb1 : numBits n.value ≤ 32 := numBits_le (by omega)
  have hb2 : 24 < numBits n.value := by
    by_contra hc
    have h3 := natAbs_lt_numBits n.value
    have : 2 ^ numBits n.value ≤ 2 ^ 24 := Nat.pow_le_pow_right (by decide) (by omega)
    omega
  unfold toBigInteger
  rw [if_neg hz]
  dsimp only
  rw [hm] at *
  have hd : decide (-(m : Int) < 0) = true := by rw [decide_eq_true_eq]; omega
  rw [hd, if_pos rfl, show (numBits (-(m : Int)) + 7) / 8 + 1 = 5 by omega]
  have hu : ((-(m : Int)) % 256 ^ 5).toNat = 2 ^ 40 - m := by norm_num; omega
  have has : asByteArray (-(m : Int)) 5 true = some (lowBytes 5 (2 ^ 40 - m)) := by
    unfold asByteArray
    rw [if_pos rfl, if_pos (by norm_num; omega), hu]
  rw [has]
  generalize hu' : 2 ^ 40 - m = u
  have hlow : lowBytes 5 u = [u % 256, u / 256 % 256, u / 256 / 256 % 256, u / 256 / 256 / 256 % 256, u / 256 / 256 / 256 / 256 % 256] := rfl
  have h4 : u / 256 / 256 / 256 / 256 % 256 = 255 := by norm_num at *; omega
  have htake : (lowBytes 5 u).take ((lowBytes 5 u).length - 1) = lowBytes 4 u := by rw [hlow]; rfl
  dsimp only
  rw [htake, lowBytes_length, if_neg (by simp), hlow, h4]
  have h3 : u / 256 / 256 / 256 % 256 < 256 := Nat.mod_lt _ (by decide)
  by_cases hff : m = 2 ^ 24
  · obtain rfl : u = 2 ^ 40 - 2 ^ 24 := by omega
    rw [if_neg (by omega)]
    rfl
  · have h3' : u / 256 / 256 / 256 % 256 ≠ 255 := by norm_num at *; omega
    have hf : findMsb [u % 256, u / 256 % 256, u / 256 / 256 % 256, u / 256 / 256 / 256 % 256, 255] (5 - 1) (5 - 1) =
        .ok (u / 256 / 256 / 256 % 256) := by
      show findMsb _ _ 4 = _
      rw [findMsb, idx]
      simp only [List.getElem?_cons_succ, List.getElem?_cons_zero, Res.ok_bind, ne_eq, not_true_eq_false, if_false]
      rw [findMsb, idx]
      simp only [List.getElem?_cons_succ, List.getElem?_cons_zero, Res.ok_bind]
      rw [if_pos h3']
    rw [hf, Res.ok_bind]
    by_cases hc : m ≤ 2 ^ 31
    · rw [if_pos (c := 2 ^ 24 < m ∧ m ≤ 2 ^ 31) ⟨by omega, hc⟩, if_neg]
      have : 128 ≤ u / 256 / 256 / 256 % 256 := by norm_num at *; omega
      generalize u / 256 / 256 / 256 % 256 = b at *
      clear hlow htake hf
      revert h3 this
      clear * -
      revert b
      decide +kernel
    · rw [if_neg (c := 2 ^ 24 < m ∧ m ≤ 2 ^ 31) (by omega), if_pos]
      have : u / 256 / 256 / 256 % 256 < 128 := by norm_num at *; omega
      generalize u / 256 / 256 / 256 % 256 = b at *
      revert this
      clear * -
      revert b
      decide

/-- C44 under the letter of C++17: a Python integer is converted rightly exactly unless it is a
negative `int` other than `-2^24`, the one that is handed on in five bytes. -/
theorem C44_strict_exact_iff (n : PyInt) (k : Nat) (hk : k < 2 ^ 34 - 184) (hn : n.value.natAbs < 2 ^ k)
    (hs : Cfg.strictShift = true) :
    Returns (toBigInteger n) n.value ↔ ¬ (-2 ^ 31 ≤ n.value ∧ n.value < 0 ∧ n.value ≠ -2 ^ 24) := by
  by_cases h0 : 0 ≤ n.value ∨ n.value ≤ -2 ^ 32
  · refine iff_of_true (C44_of_int_partial n k hk hn (.inr h0)) ?_
    omega
  by_cases h1 : -2 ^ 24 < n.value
  · refine iff_of_false ?_ (by rw [not_not]; omega)
    rintro ⟨b, h, -⟩
    rw [C44_strict_shift n hs (by omega) h1] at h
    cases h
  obtain ⟨m, hm⟩ : ∃ m : Nat, n.value = -(m : Int) := ⟨n.value.natAbs, by omega⟩
  have h5 := five_bytes n m hm (by omega) (by omega)
  have hv5 : 2 ^ 40 - m < 256 ^ 5 := by norm_num; omega
  by_cases hc : 2 ^ 24 < m ∧ m ≤ 2 ^ 31
  · rw [if_pos hc] at h5
    refine iff_of_false ?_ (by rw [not_not]; omega)
    rintro ⟨b, h, -⟩
    have hneg : bytesValue false false (lowBytes 4 (2 ^ 40 - m)) < 0 := by
      unfold bytesValue signedVal
      simp only [Bool.false_eq_true, if_false]
      rw [if_pos, show (2 : Nat) ^ 8 = 256 by rfl, lowBytes_val, lowBytes_length]
      · norm_num; omega
      · rw [lowBytes_succ, List.getLast?_append]
        simp only [List.getLast?_singleton, Option.some_or, Option.getD_some]
        norm_num
        omega
    rw [h5, C25_strict_shift _ (lowBytes_ok _ _) false false hs hneg (by rw [lowBytes_length])] at h
    cases h
  · rw [if_neg hc] at h5
    refine iff_of_true ?_ (by omega)
    have hval : bytesValue false false (lowBytes 5 (2 ^ 40 - m)) = n.value := by
      unfold bytesValue signedVal
      simp only [Bool.false_eq_true, if_false]
      rw [if_pos, show (2 : Nat) ^ 8 = 256 by rfl, lowBytes_val, lowBytes_length, Nat.mod_eq_of_lt hv5]
      · norm_num; omega
      · rw [lowBytes_succ, List.getLast?_append]
        simp only [List.getLast?_singleton, Option.some_or, Option.getD_some]
        norm_num
        omega
    rw [h5, ← hval]
    exact C25_of_bytes_partial _ (lowBytes_ok _ _) (by rw [lowBytes_length]; norm_num) false false
      (.inr (.inr (by rw [lowBytes_length]; norm_num)))
example (h : Cfg.strictShift = true) : Returns (toBigInteger ⟨-2 ^ 24, false, nofun⟩) (-2 ^ 24) :=
  (C44_strict_exact_iff ⟨-2 ^ 24, false, nofun⟩ 25 (by decide) (by decide) h).2 (by decide)
example (h : Cfg.strictShift = true) : ¬ Returns (toBigInteger ⟨-2 ^ 24 - 1, false, nofun⟩) (-2 ^ 24 - 1) := fun h' =>
  (C44_strict_exact_iff ⟨-2 ^ 24 - 1, false, nofun⟩ 25 (by decide) (by decide) h).1 h' (by decide)

/-- C53: `str(a)` is right exactly where `to_string` is. -/
theorem C53_str_exact_iff (a : BigInt) (x : Int) (ha : a.Denotes x) (fa : a.Fits) :
    pyStr a = .ok (toString x).toList ↔ ¬ TextMisfires x ∧ a.bits.length ≤ 2147483647 / 10 := C30_exact_iff a x ha fa
example : pyStr neg3 = .ok (toString (-18446744103774322693 : Int)).toList :=
  (C53_str_exact_iff _ _ neg3_denotes neg3_fits).2 ⟨by decide +kernel, by decide⟩

end BigIntegerCpp
