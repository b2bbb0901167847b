import Verif.Lemmas.Python
import Verif.Props.Text
import Verif.Props.Arith
import Verif.Props.Basic
import Verif.Props.Pow
/-
C44, C45, C47 and the Python part of C04: the Python bindings.  PythonSpec.lean says what the
operators mean on integers.
-/
namespace BigIntegerCpp
open Samples
variable [Cfg]

/-! ### C44 conversion of Python integers -/

/-- `BigInteger(n)` for a Python `int` of less than `2^34 - 184` bits.  Missing from the full claim:
under the letter of C++17, negative numbers above `-2^32` (see C25 and `C44_strict_shift`). -/
theorem C44_of_int_partial (n : PyInt) (k : Nat) (hk : k < 2 ^ 34 - 184) (hn : n.value.natAbs < 2 ^ k)
    (hs : Cfg.strictShift = false ∨ 0 ≤ n.value ∨ n.value ≤ -2 ^ 32) : Returns (toBigInteger n) n.value :=
  toBigInteger_spec n (lt_of_le_of_lt (numBits_le hn) (by norm_num at hk; omega)) hs

/-- With the shifts of GCC, Clang or C++20 there is no exception. -/
theorem C44_of_int (n : PyInt) (k : Nat) (hk : k < 2 ^ 34 - 184) (hn : n.value.natAbs < 2 ^ k) (hs : Cfg.strictShift = false) :
    Returns (toBigInteger n) n.value := C44_of_int_partial n k hk hn (.inl hs)

/-- Under the letter of C++17 the conversion of a small negative number shifts a negative `int`. -/
theorem C44_strict_shift (n : PyInt) (hs : Cfg.strictShift = true) (h1 : n.value < 0) (h2 : -2 ^ 24 < n.value) :
    toBigInteger n = .ub .badShift := by
  obtain ⟨w, e1, e2, e3, e4, e5⟩ := toBigInteger_neg n h1
  have h6 := numBits_le (v := n.value) (k := 24) (by omega)
  have := ofBytes_spec w (by omega) e2 false false
  rwa [if_pos ⟨hs, by omega, by omega⟩, ← e1] at this

/-- `int(a)`, also `a.__index__()`. -/
theorem C44_to_int (a : BigInt) (x : Int) (ha : a.Denotes x) (hl : a.bits.length < 2 ^ 29) : toPyInt a = .ok x := toPyInt_spec ha hl

/-- `int(BigInteger(n)) == n`. -/
theorem C44_round_trip (n : PyInt) (k : Nat) (hk : k < 2 ^ 34 - 184) (hn : n.value.natAbs < 2 ^ k) (hs : Cfg.strictShift = false) :
    (toBigInteger n >>= toPyInt) = .ok n.value := by
  obtain ⟨b, h1, h2⟩ := C44_of_int n k hk hn hs
  rw [h1, Res.ok_bind]
  refine C44_to_int b _ h2 (lt_of_le_of_lt (h2.length_le_of_lt (k := 2 ^ 29 - 1) (lt_of_lt_of_le hn ?_)) (by decide))
  exact Nat.pow_le_pow_right (by decide) (by norm_num at hk ⊢; omega)

/-- `BigInteger(int(a)) == a`. -/
theorem C44_round_trip_back (a : BigInt) (x : Int) (ha : a.Denotes x) (hl : a.bits.length < 2 ^ 29 - 10) (hs : Cfg.strictShift = false) :
    (toPyInt a >>= fun z => toBigInteger ⟨z, false, by simp⟩) = .ok a := by
  rw [C44_to_int a x ha (by omega), Res.ok_bind]
  have hx : x.natAbs < 2 ^ (32 * Max.max 1 a.bits.length) := by
    by_contra hc
    have := ha.lt_length (not_lt.1 hc) (by omega)
    omega
  obtain ⟨b, h1, h2⟩ := C44_of_int ⟨x, false, by simp⟩ (32 * Max.max 1 a.bits.length) (by norm_num at hl ⊢; omega) hx hs
  rw [h1, h2.unique ha]

example : Returns (toBigInteger ⟨-18446744103774322693, false, by simp⟩) (-18446744103774322693) :=
  C44_of_int_partial _ 65 (by decide) (by decide) (.inr (.inr (by decide)))
example : toPyInt neg3 = .ok (-18446744103774322693) := C44_to_int _ _ neg3_denotes (by decide)

/-! ### C45 operators -/

private theorem arg {n : PyInt} (h : InRange n.value) (hs : Cfg.strictShift = false) : Returns (toBigInteger n) n.value :=
  C44_of_int n _ (by norm_num) h hs

private theorem meaning_eq (op : PyOp) : ∃ op' : BinOp, op.method = op'.apply ∧ op.meaning = op'.meaning := by
  cases op
  · exact ⟨.add, rfl, rfl⟩
  · exact ⟨.sub, rfl, rfl⟩
  · exact ⟨.mul, rfl, rfl⟩
  · exact ⟨.rem, rfl, rfl⟩
  · exact ⟨.div, rfl, rfl⟩
  · exact ⟨.div, rfl, rfl⟩
  · exact ⟨.and, rfl, rfl⟩
  · exact ⟨.or, rfl, rfl⟩
  · exact ⟨.xor, rfl, rfl⟩

private theorem symm (op : PyOp) (h : op = .add ∨ op = .and ∨ op = .or ∨ op = .xor) (x y : Int) : op.meaning x y = op.meaning y x := by
  have bit : ∀ {z w : Int}, (∀ k, Int.testBit z k = Int.testBit w k) → z = w := fun h => ibit_ext fun k => by
    rw [← ibit_testBit, ← ibit_testBit, h]
  rcases h with rfl | rfl | rfl | rfl
  · show Except.ok (x + y) = Except.ok (y + x); rw [Int.add_comm]
  · exact congrArg Except.ok (bit fun k => by rw [Int.testBit_land, Int.testBit_land, Bool.and_comm])
  · exact congrArg Except.ok (bit fun k => by rw [Int.testBit_lor, Int.testBit_lor, Bool.or_comm])
  · exact congrArg Except.ok (bit fun k => by rw [Int.testBit_lxor, Int.testBit_lxor, Bool.xor_comm])

private theorem methodInt_eq (op : PyOp) (a : BigInt) (n : PyInt) : op.methodInt a n =
    (do let o ← toBigInteger n; if op = .add then op.method o a else op.method a o) := by cases op <;> rfl

private theorem reflected_eq (op : PyOp) (b : BigInt) (n : PyInt) : op.reflected b n =
    (do
      let o ← toBigInteger n
      let r ← (if op = .add ∨ op = .and ∨ op = .or ∨ op = .xor then op.method b o else op.method o b)
      toPyInt r) := by cases op <;> rfl

private theorem method_spec (op : PyOp) {a b : BigInt} {x y : Int} (ha : a.Denotes x) (hb : b.Denotes y) (hx : InRange x) (hy : InRange y) :
    match op.meaning x y with
    | .ok z => ∃ c, op.method a b = .ok c ∧ c.Denotes z ∧ c.bits.length < 2 ^ 29
    | .error e => op.method a b = .throw e := by
  obtain ⟨op', h1, h2⟩ := meaning_eq op
  rw [h1, h2]
  cases hm : op'.meaning x y with
  | ok z =>
    obtain ⟨c, h3, h4⟩ := op'.apply_ok ha hb hx hy hm
    exact ⟨c, h3, h4, lt_of_le_of_lt (h4.length_le_of_lt (k := 2 ^ 29 - 1) (op'.meaning_bound hx hy hm)) (by decide)⟩
  | error e => exact op'.apply_throw ha hb hx hm

/-- C45: `l op r` for `+ - * % / // & | ^` with at least one `BigInteger` operand is the integer
operation on the values of `l` and `r`, in this order, as a `BigInteger` if `l` is one and as an
`int` otherwise; division by zero throws `DivideByZero`. -/
theorem C45_binary (op : PyOp) (l r : PyVal) (x y : Int) (hl : l.Stands x) (hr : r.Stands y) (hlr : Bound l r)
    (hx : InRange x) (hy : InRange y) (hs : Cfg.strictShift = false) : Yields l (op.eval l r) (op.meaning x y) := by
  cases l with
  | big a =>
    cases r with
    | big b =>
      have := method_spec op hl hr hx hy
      dsimp only [PyOp.eval]
      cases hm : op.meaning x y with
      | ok z =>
        rw [hm] at this
        obtain ⟨c, h1, h2, -⟩ := this
        exact ⟨c, by rw [h1]; rfl, h2⟩
      | error e =>
        rw [hm] at this
        show some _ = some _
        rw [this]; rfl
    | int n =>
      obtain rfl : n.value = y := hr
      obtain ⟨o, h1, h2⟩ := arg hy hs
      dsimp only [PyOp.eval]
      rw [methodInt_eq, h1, Res.ok_bind]
      have : match op.meaning x n.value with
          | .ok z => ∃ c, (if op = .add then op.method o a else op.method a o) = .ok c ∧ c.Denotes z ∧ c.bits.length < 2 ^ 29
          | .error e => (if op = .add then op.method o a else op.method a o) = .throw e := by
        by_cases h : op = .add
        · simp only [if_pos h]
          rw [symm op (.inl h)]
          exact method_spec op h2 hl hy hx
        · simp only [if_neg h]
          exact method_spec op hl h2 hx hy
      cases hm : op.meaning x n.value with
      | ok z =>
        rw [hm] at this
        obtain ⟨c, h1, h2, -⟩ := this
        exact ⟨c, by rw [h1]; rfl, h2⟩
      | error e =>
        rw [hm] at this
        show some _ = some _
        rw [this]; rfl
  | int n =>
    cases r with
    | int m => exact hlr.elim
    | big b =>
      obtain rfl : n.value = x := hl
      obtain ⟨o, h1, h2⟩ := arg hx hs
      dsimp only [PyOp.eval]
      rw [reflected_eq, h1, Res.ok_bind]
      have : match op.meaning n.value y with
          | .ok z => ∃ c, (if op = .add ∨ op = .and ∨ op = .or ∨ op = .xor then op.method b o else op.method o b) = .ok c ∧ c.Denotes z ∧
              c.bits.length < 2 ^ 29
          | .error e => (if op = .add ∨ op = .and ∨ op = .or ∨ op = .xor then op.method b o else op.method o b) = .throw e := by
        by_cases h : op = .add ∨ op = .and ∨ op = .or ∨ op = .xor
        · simp only [if_pos h]
          rw [symm op h]
          exact method_spec op hr h2 hy hx
        · simp only [if_neg h]
          exact method_spec op h2 hr hx hy
      cases hm : op.meaning n.value y with
      | ok z =>
        rw [hm] at this
        obtain ⟨c, h1, h2, h3⟩ := this
        show some _ = some _
        rw [h1, Res.ok_bind, toPyInt_spec h2 h3]; rfl
      | error e =>
        rw [hm] at this
        show some _ = some _
        rw [this]; rfl

/-- C45: comparisons, also `int < BigInteger` and so on. -/
theorem C45_compare (c : PyCmp) (l r : PyVal) (x y : Int) (hl : l.Stands x) (hr : r.Stands y) (hlr : Bound l r)
    (hx : InRange x) (hy : InRange y) (hs : Cfg.strictShift = false) : c.eval l r = some (.ok (decide (c.meaning x y))) := by
  have main : ∀ (c : PyCmp) {a b : BigInt} {x y : Int}, a.Denotes x → b.Denotes y → InRange x → InRange y →
      c.method a b = .ok (decide (c.meaning x y)) := by
    intro c a b x y ha hb hx hy
    have la := hx.length ha
    have lb := hy.length hb
    cases c
    · exact BigInt.lt_spec ha hb (by omega) (by omega)
    · exact BigInt.le_spec ha hb (by omega) (by omega)
    · exact BigInt.equals_spec ha hb
    · show (do let r ← a.equals b; Res.ok !r) = Res.ok (decide (x ≠ y))
      rw [BigInt.equals_spec ha hb, Res.ok_bind, ← decide_not]
    · exact BigInt.gt_spec ha hb (by omega) (by omega)
    · exact BigInt.ge_spec ha hb (by omega) (by omega)
  cases l with
  | big a =>
    cases r with
    | big b => exact congrArg some (main c hl hr hx hy)
    | int n =>
      obtain rfl : n.value = y := hr
      obtain ⟨o, h1, h2⟩ := arg hy hs
      dsimp only [PyCmp.eval]
      rw [h1, Res.ok_bind, main c hl h2 hx hy]
  | int n =>
    cases r with
    | int m => exact hlr.elim
    | big b =>
      obtain rfl : n.value = x := hl
      obtain ⟨o, h1, h2⟩ := arg hx hs
      dsimp only [PyCmp.eval]
      rw [h1, Res.ok_bind, main c.mirror hr h2 hy hx]
      congr 2
      rw [decide_eq_decide]
      cases c <;> simp only [PyCmp.mirror, PyCmp.meaning] <;> omega

private theorem short {b : BigInt} {z : Int} (hb : b.Denotes z) (h : z.natAbs < 2 ^ (32 * (2 ^ 29 - 1))) : b.bits.length < 2 ^ 29 :=
  lt_of_le_of_lt (hb.length_le_of_lt (k := 2 ^ 29 - 1) h) (by decide)

private theorem count {b : BigInt} {y : Int} (hb : b.Denotes y) (hy : IntRange y) (h : y ≠ -2 ^ 31) : b.toInt32 = .ok y := by
  rw [BigInt.toInt32_spec hb, if_neg (by norm_num at h ⊢; exact h), if_pos]
  exact ⟨hy.1, by have := hy.2; omega⟩

omit [Cfg] in
private theorem count' {n : PyInt} (hy : IntRange n.value) : castInt n = .ok n.value := by
  unfold castInt
  rw [if_pos ⟨hy.1, by have := hy.2; omega⟩]

/-- C45: `l << r` is `l * 2^r`, rounded down if `r` is negative.  The count is a C++ `int`.
Excluded are the faults of `>>` for negative counts (C22) and of `operator int` at `-2^31` (C34). -/
theorem C45_shift_left_partial (l r : PyVal) (x y : Int) (hl : l.Stands x) (hr : r.Stands y) (hlr : Bound l r)
    (hx : InRange x) (hy : IntRange y) (hs : Cfg.strictShift = false)
    (hm : y < 0 → ¬ ShiftMisfires x (-y).toNat) (hmin : (∃ b, r = .big b) → y ≠ -2 ^ 31) :
    Answers l (pyShl l r) (shiftInt x y) := by
  cases l with
  | big a =>
    obtain ⟨c, h1, h2⟩ := shl_in_range hl hx hy hm
    cases r with
    | big b =>
      refine ⟨c, ?_, h2⟩
      dsimp only [pyShl]
      rw [count hr hy (hmin ⟨b, rfl⟩), Res.ok_bind, h1]; rfl
    | int n =>
      obtain rfl : n.value = y := hr
      refine ⟨c, ?_, h2⟩
      dsimp only [pyShl]
      rw [count' hy, Res.ok_bind, h1]; rfl
  | int n =>
    cases r with
    | int m => exact hlr.elim
    | big b =>
      obtain rfl : n.value = x := hl
      obtain ⟨o, h1, h2⟩ := arg hx hs
      obtain ⟨c, h3, h4⟩ := shl_in_range h2 hx hy hm
      show pyShl _ _ = _
      dsimp only [pyShl]
      rw [h1, Res.ok_bind, count hr hy (hmin ⟨b, rfl⟩), Res.ok_bind, h3, Res.ok_bind,
        toPyInt_spec h4 (short h4 (shiftInt_bound hx hy.1 (by have := hy.2; omega)))]
      rfl

/-- C45: `l >> r` is `l / 2^r` rounded down; see `C45_shift_left_partial`. -/
theorem C45_shift_right_partial (l r : PyVal) (x y : Int) (hl : l.Stands x) (hr : r.Stands y) (hlr : Bound l r)
    (hx : InRange x) (hy : IntRange y) (hs : Cfg.strictShift = false)
    (hm : 0 < y → ¬ ShiftMisfires x y.toNat) (hmin : (∃ b, r = .big b) → y ≠ -2 ^ 31) :
    Answers l (pyShr l r) (shiftInt x (-y)) := by
  cases l with
  | big a =>
    obtain ⟨c, h1, h2⟩ := shr_in_range hl hx hy hm
    cases r with
    | big b =>
      refine ⟨c, ?_, h2⟩
      dsimp only [pyShr]
      rw [count hr hy (hmin ⟨b, rfl⟩), Res.ok_bind, h1]; rfl
    | int n =>
      obtain rfl : n.value = y := hr
      refine ⟨c, ?_, h2⟩
      dsimp only [pyShr]
      rw [count' hy, Res.ok_bind, h1]; rfl
  | int n =>
    cases r with
    | int m => exact hlr.elim
    | big b =>
      obtain rfl : n.value = x := hl
      obtain ⟨o, h1, h2⟩ := arg hx hs
      obtain ⟨c, h3, h4⟩ := shr_in_range h2 hx hy hm
      show pyShr _ _ = _
      dsimp only [pyShr]
      rw [h1, Res.ok_bind, count hr hy (hmin ⟨b, rfl⟩), Res.ok_bind, h3, Res.ok_bind,
        toPyInt_spec h4 (short h4 (shiftInt_bound hx (by have := hy.2; omega) (by have := hy.1; omega)))]
      rfl

/-- The exception for a count or an exponent that is not a C++ `int`. -/
private theorem big_count {b : BigInt} {y : Int} (hb : b.Denotes y) (hy : ¬ IntRange y) : b.toInt32 = .throw .overflowError := by
  rw [BigInt.toInt32_spec hb, if_neg, if_neg]
  · exact fun h => hy ⟨h.1, by omega⟩
  · rintro rfl; exact hy (by decide)

/-- A count outside `int` raises: `overflow_error` for a `BigInteger`, `cast_error` for an `int`. -/
theorem C45_shift_count (l r : PyVal) (x y : Int) (hl : l.Stands x) (hr : r.Stands y) (hlr : Bound l r)
    (hx : InRange x) (hy : ¬ IntRange y) (hs : Cfg.strictShift = false) :
    (∀ b, r = .big b → pyShl l r = some (.throw .overflowError) ∧ pyShr l r = some (.throw .overflowError)) ∧
    (∀ n, r = .int n → pyShl l r = some (.throw .castError) ∧ pyShr l r = some (.throw .castError)) := by
  constructor
  · rintro b rfl
    have h := big_count hr hy
    cases l with
    | big a => constructor <;> simp [pyShl, pyShr, h]
    | int n =>
      obtain rfl : n.value = x := hl
      obtain ⟨o, h1, h2⟩ := arg hx hs
      constructor <;> simp [pyShl, pyShr, h1, h]
  · rintro n rfl
    have h : castInt n = .throw .castError := by
      obtain rfl : n.value = y := hr
      exact if_neg fun h => hy ⟨h.1, by omega⟩
    cases l with
    | big a => constructor <;> simp [pyShl, pyShr, h]
    | int n => exact hlr.elim

/-- C45: `l ** r`.  The power must be in range; at `-2^31` a `BigInteger` exponent is undefined (C34). -/
theorem C45_pow (l r : PyVal) (x : Int) (y : Nat) (hl : l.Stands x) (hr : r.Stands y) (hlr : Bound l r)
    (hx : InRange x) (hy : IntRange y) (hz : InRange (x ^ y)) (hs : Cfg.strictShift = false) :
    Answers l (pyPow l r) (x ^ y) := by
  have hy2 : y < 2147483648 := by have := hy.2; omega
  cases l with
  | big a =>
    obtain ⟨c, h1, h2⟩ := pow_in_range hl hx hy2 hz
    cases r with
    | big b =>
      refine ⟨c, ?_, h2⟩
      dsimp only [pyPow]
      rw [count hr hy (by omega), Res.ok_bind, h1]; rfl
    | int n =>
      have hn : n.value = (y : Int) := hr
      refine ⟨c, ?_, h2⟩
      dsimp only [pyPow]
      rw [count' (hn ▸ hy), hn]
      dsimp only
      rw [Res.ok_bind, h1]; rfl
  | int n =>
    cases r with
    | int m => exact hlr.elim
    | big b =>
      obtain rfl : n.value = x := hl
      obtain ⟨o, h1, h2⟩ := arg hx hs
      obtain ⟨c, h3, h4⟩ := pow_in_range h2 hx hy2 hz
      show pyPow _ _ = _
      dsimp only [pyPow]
      rw [h1, Res.ok_bind, count hr hy (by omega), Res.ok_bind, h3, Res.ok_bind,
        toPyInt_spec h4 (short h4 (lt_of_lt_of_le hz (Nat.pow_le_pow_right (by decide) (by decide))))]
      rfl

/-- A negative exponent raises `out_of_range`, one that is not a C++ `int` `overflow_error`. -/
theorem C45_pow_throws (l r : PyVal) (x y : Int) (hl : l.Stands x) (hr : r.Stands y) (hlr : Bound l r)
    (hx : InRange x) (hs : Cfg.strictShift = false) :
    (¬ IntRange y → pyPow l r = some (.throw .overflowError)) ∧
    (-2 ^ 31 < y → y < 0 → pyPow l r = some (.throw .outOfRange)) := by
  constructor
  · intro hy
    cases r with
    | big b =>
      have h := big_count hr hy
      cases l with
      | big a => simp [pyPow, h]
      | int n =>
        obtain rfl : n.value = x := hl
        obtain ⟨o, h1, h2⟩ := arg hx hs
        simp [pyPow, h1, h]
    | int n =>
      have h : castInt n = .throw .castError := by
        obtain rfl : n.value = y := hr
        exact if_neg fun h => hy ⟨h.1, by omega⟩
      cases l with
      | big a => simp [pyPow, h]
      | int n => exact hlr.elim
  · intro h1 h2
    have hy : IntRange y := ⟨by omega, by omega⟩
    have hp : ∀ a : BigInt, a.pow y = .throw .outOfRange := fun a => C15_negative_exponent a y h2
    cases r with
    | big b =>
      have h := count hr hy (by omega)
      cases l with
      | big a => simp [pyPow, h, hp]
      | int n =>
        obtain rfl : n.value = x := hl
        obtain ⟨o, h1, h2⟩ := arg hx hs
        simp [pyPow, h1, h, hp]
    | int n =>
      have hn : n.value = y := hr
      have h : castInt n = .ok y := by rw [count' (hn ▸ hy), hn]
      cases l with
      | big a => simp [pyPow, h, hp]
      | int n => exact hlr.elim

/-- C45: `divmod(l, r)` is the truncated quotient and its remainder.  Excluded are the faults of
`div_rem` (C13) and, as the reflected form goes through text, those of `to_string` (C30). -/
theorem C45_divmod_partial (l r : PyVal) (x y : Int) (hl : l.Stands x) (hr : r.Stands y) (hlr : Bound l r)
    (hx : InRange x) (hy : InRange y) (hy0 : y ≠ 0) (hs : Cfg.strictShift = false)
    (hdom : ¬ (2 ^ 31 ≤ |x| ∧ |y| < 2 ^ 31 ∧ x.tmod y < 0))
    (htext : (∃ n, l = .int n) → ¬ TextMisfires (x.tdiv y) ∧ ¬ TextMisfires (x.tmod y)) :
    AnswersPair l (pyDivmod l r) (x.tdiv y) (x.tmod y) := by
  have fits : ∀ {a : BigInt} {x : Int}, a.Denotes x → InRange x → a.Fits := fun ha hx => by
    have := hx.length ha
    unfold BigInt.Fits
    omega
  cases l with
  | big a =>
    cases r with
    | big b =>
      obtain ⟨q, r, h1, h2, h3⟩ := C13_div_rem_partial a b x y hl hr hy0 (fits hl hx) hdom
      exact ⟨q, r, by dsimp only [pyDivmod]; rw [h1]; rfl, h2, h3⟩
    | int n =>
      obtain rfl : n.value = y := hr
      obtain ⟨b, h4, h5⟩ := arg hy hs
      obtain ⟨q, r, h1, h2, h3⟩ := C13_div_rem_partial a b x _ hl h5 hy0 (fits hl hx) hdom
      exact ⟨q, r, by dsimp only [pyDivmod]; rw [h4, Res.ok_bind, h1]; rfl, h2, h3⟩
  | int n =>
    cases r with
    | int m => exact hlr.elim
    | big b =>
      obtain ⟨ht1, ht2⟩ := htext ⟨n, rfl⟩
      obtain rfl : n.value = x := hl
      obtain ⟨o, h4, h5⟩ := arg hx hs
      obtain ⟨q, r, h1, h2, h3⟩ := C13_div_rem_partial o b _ y h5 hr hy0 (fits h5 hx) hdom
      have hq : InRange (n.value.tdiv y) := lt_of_le_of_lt (by rw [Int.natAbs_tdiv]; exact Nat.div_le_self _ _) hx
      have hr : InRange (n.value.tmod y) := lt_of_le_of_lt (by rw [Int.natAbs_tmod]; exact Nat.mod_le _ _) hx
      have lq := hq.length h2
      have lr := hr.length h3
      show pyDivmod _ _ = _
      dsimp only [pyDivmod]
      rw [h4, Res.ok_bind, h1, Res.ok_bind]
      dsimp only
      rw [C30_to_string_partial q _ h2 (by norm_num; omega) ht1, Res.ok_bind, C30_to_string_partial r _ h3 (by norm_num; omega) ht2,
        Res.ok_bind, textValue_toString, textValue_toString]

/-- `divmod` by zero raises `DivideByZero`. -/
theorem C45_divmod_zero (l r : PyVal) (x : Int) (hl : l.Stands x) (hr : r.Stands 0) (hlr : Bound l r) (hx : InRange x)
    (hs : Cfg.strictShift = false) : pyDivmod l r = some (.throw .divideByZero) := by
  have div : ∀ {a b : BigInt}, a.Denotes x → b.Denotes 0 → a.divRem b = .throw .divideByZero := fun ha hb =>
    BigInt.divRem_zero_spec ha hb (by have := hx.length ha; omega)
  cases l with
  | big a =>
    cases r with
    | big b => simp [pyDivmod, div hl hr]
    | int n =>
      have h0 : n.value = 0 := hr
      obtain ⟨b, h4, h5⟩ := arg (n := n) (by rw [h0]; exact inRange_small (by decide)) hs
      simp [pyDivmod, h4, div hl (h0 ▸ h5)]
  | int n =>
    cases r with
    | int m => exact hlr.elim
    | big b =>
      obtain rfl : n.value = x := hl
      obtain ⟨o, h4, h5⟩ := arg hx hs
      simp [pyDivmod, h4, div h5 hr]

/-- The whole claim is false for `divmod`: `divmod(BigInteger(-2**32 - 3), 10)` has remainder
`2^32 - 9`, and `divmod(-10**17, BigInteger(1))` writes outside a buffer. -/
theorem C45_divmod_refuted (hs : Cfg.strictShift = false) :
    (∃ a n, BigInt.Denotes a (-4294967299) ∧ n.value = 10 ∧ ∃ q r, pyDivmod (.big a) (.int n) = some (.ok (.inl (q, r))) ∧
      r.Denotes 4294967287) ∧
    (∃ n b, n.value = -100000000000000000 ∧ BigInt.Denotes b 1 ∧ pyDivmod (.int n) (.big b) = some (.ub .outOfBounds)) := by
  constructor
  · have ha : BigInt.Denotes ⟨-1, [3, 1]⟩ (-4294967299) :=
      BigInt.denotes_big (.inr rfl) (by decide) (by decide) (by decide) (by decide) (by decide)
    refine ⟨_, ⟨10, false, by simp⟩, ha, rfl, ?_⟩
    obtain ⟨b, h4, h5⟩ := arg (n := ⟨10, false, by simp⟩) (inRange_small (by decide)) hs
    obtain ⟨q, r, h1, -, h3⟩ := C13_wrong_remainder _ b _ 10 ha h5 (by decide) (by decide) (by decide) (by decide) (by decide)
    exact ⟨q, r, by dsimp only [pyDivmod]; rw [h4, Res.ok_bind, h1]; rfl, h3⟩
  · refine ⟨⟨-100000000000000000, false, by simp⟩, ⟨1, []⟩, rfl, BigInt.denotes_small (by decide) (by decide), ?_⟩
    obtain ⟨a, h4, h5⟩ := arg (n := ⟨-100000000000000000, false, by simp⟩) (inRange_small (by decide)) hs
    have hb : BigInt.Denotes ⟨1, []⟩ 1 := BigInt.denotes_small (by decide) (by decide)
    have la := (inRange_small (z := -100000000000000000) (by decide)).length h5
    obtain ⟨q, r, h1, h2, h3⟩ := C13_div_rem_partial a _ _ 1 h5 hb (by decide) (by unfold BigInt.Fits; omega) (by decide)
    have lq := (inRange_small (z := -100000000000000000) (by decide)).length (b := q) h2
    dsimp only [pyDivmod]
    rw [h4, Res.ok_bind, h1, Res.ok_bind]
    dsimp only
    rw [C30_misfire q _ h2 (by norm_num; omega) (by decide +kernel)]
    rfl

/-- C45: `pow(a, e, m)`, with an `int` for the exponent or the modulus, is `mod_pow` of the converted
arguments in the same order. -/
theorem C45_pow_mod (a e m : BigInt) (k : PyInt) (hs : Cfg.strictShift = false) :
    pyPowMod (.big a) (.big e) (.big m) = some (a.modPow e m) ∧
    (e.Denotes k.value → InRange k.value → pyPowMod (.big a) (.int k) (.big m) = some (a.modPow e m)) ∧
    (m.Denotes k.value → InRange k.value → pyPowMod (.big a) (.big e) (.int k) = some (a.modPow e m)) := by
  refine ⟨rfl, fun h1 h2 => ?_, fun h1 h2 => ?_⟩ <;>
  · obtain ⟨o, h3, h4⟩ := arg h2 hs
    obtain rfl := h4.unique h1
    simp [pyPowMod, h3]

/-! ### C04, C47 hashing -/

/-- C04 in Python: equal `BigInteger`s have the same `hash`. -/
theorem C04_python_hash (a b : BigInt) (ha : a.Valid) (hb : b.Valid) (h : PyCmp.eq.eval (.big a) (.big b) = some (.ok true)) :
    pyHash a = pyHash b := by
  unfold pyHash
  rw [C04_hash a b ha hb (Option.some.inj h)]

/-- C47 fails for every non-negative value below `2^55`: the `BigInteger` equals the Python `int`, on
either side of `==`, and their hashes differ. -/
theorem C47_never (a : BigInt) (k : Nat) (n : PyInt) (hk : k < 2 ^ 55) (ha : a.Denotes k) (hn : n.value = k) (hs : Cfg.strictShift = false) :
    PyCmp.eq.eval (.big a) (.int n) = some (.ok true) ∧ PyCmp.eq.eval (.int n) (.big a) = some (.ok true) ∧ pyHash a ≠ intHash k := by
  have r : InRange k := inRange_small (by norm_num at hk ⊢; omega)
  refine ⟨?_, ?_, ?_⟩
  · rw [C45_compare .eq (.big a) (.int n) k k ha hn trivial r r hs]
    simp [PyCmp.meaning]
  · rw [C45_compare .eq (.int n) (.big a) k k hn ha trivial r r hs]
    simp [PyCmp.meaning]
  · have h := pyHash_far ha
    intro e
    rw [e, lt_abs] at h
    norm_num [intHash] at hk h
    omega

/-- So C47 is false. -/
theorem C47_refuted (hs : Cfg.strictShift = false) : ∃ (a : BigInt) (n : PyInt), a.Denotes 5 ∧ n.value = 5 ∧
    PyCmp.eq.eval (.big a) (.int n) = some (.ok true) ∧ pyHash a ≠ intHash 5 := by
  have hd : BigInt.Denotes ⟨5, []⟩ (5 : Nat) := BigInt.denotes_small (by decide) (by decide)
  have h := C47_never ⟨5, []⟩ 5 ⟨5, false, by simp⟩ (by decide) hd rfl hs
  exact ⟨⟨5, []⟩, ⟨5, false, by simp⟩, hd, rfl, h.1, h.2.2⟩

/-! ### the hypotheses can be met -/

private def py (z : Int) : PyInt := ⟨z, false, by simp⟩
omit [Cfg] in
private theorem r3 : InRange (-18446744103774322693) := lt_of_lt_of_le (b := 2 ^ 65) (by decide) (Nat.pow_le_pow_right (by decide) (by decide))
private theorem r7 : InRange 7 := inRange_small (by decide)

example (hs : Cfg.strictShift = false) : ∃ b : BigInt, PyOp.sub.eval (.big neg3) (.int (py 7)) = some (.ok (.inl b)) ∧
    b.Denotes (-18446744103774322700) := C45_binary .sub (.big neg3) (.int (py 7)) _ _ neg3_denotes rfl trivial r3 r7 hs
example (hs : Cfg.strictShift = false) : PyOp.sub.eval (.int (py 7)) (.big neg3) = some (.ok (.inr 18446744103774322700)) :=
  C45_binary .sub (.int (py 7)) (.big neg3) 7 _ rfl neg3_denotes trivial r7 r3 hs
example (hs : Cfg.strictShift = false) : PyOp.mod.eval (.big neg3) (.int (py 0)) = some (.throw .divideByZero) :=
  C45_binary .mod (.big neg3) (.int (py 0)) _ 0 neg3_denotes rfl trivial r3 (inRange_small (by decide)) hs
example (hs : Cfg.strictShift = false) : PyCmp.gt.eval (.int (py 7)) (.big neg3) = some (.ok true) :=
  C45_compare .gt (.int (py 7)) (.big neg3) 7 _ rfl neg3_denotes trivial r7 r3 hs
example (hs : Cfg.strictShift = false) : pyShl (.int (py 7)) (.big ⟨40, []⟩) = some (.ok (.inr (7 * 2 ^ 40))) :=
  C45_shift_left_partial (.int (py 7)) (.big ⟨40, []⟩) 7 40 rfl (BigInt.denotes_small (by decide) (by decide)) trivial r7 (by decide) hs
    (fun h => absurd h (by decide)) (fun _ => by decide)
example (hs : Cfg.strictShift = false) : pyPow (.int (py 7)) (.big ⟨20, []⟩) = some (.ok (.inr (7 ^ 20))) :=
  C45_pow (.int (py 7)) (.big ⟨20, []⟩) 7 20 rfl (BigInt.denotes_small (by decide) (by decide)) trivial r7 (by decide) (inRange_small (by decide)) hs
example (hs : Cfg.strictShift = false) : pyDivmod (.int (py 7)) (.big neg3) = some (.ok (.inr (0, 7))) :=
  C45_divmod_partial (.int (py 7)) (.big neg3) 7 _ rfl neg3_denotes trivial r7 r3 (by decide) hs (by decide) (fun _ => by decide +kernel)

/-! ### instances of the remaining theorems -/

example (hs : Cfg.strictShift = false) : pyShr (.big neg3) (.int (py 7)) ≠ none ∧ pyDivmod (.big neg3) (.int (py 0)) = some (.throw .divideByZero) :=
  ⟨nofun, C45_divmod_zero (.big neg3) (.int (py 0)) _ neg3_denotes rfl trivial r3 hs⟩
example (hs : Cfg.strictShift = false) : pyPow (.big neg3) (.big ⟨-7, []⟩) = some (.throw .outOfRange) :=
  (C45_pow_throws (.big neg3) (.big ⟨-7, []⟩) _ (-7) neg3_denotes (BigInt.denotes_small (by decide) (by decide)) trivial r3 hs).2 (by decide) (by decide)
example (hs : Cfg.strictShift = false) : (toPyInt neg3 >>= fun z => toBigInteger ⟨z, false, by simp⟩) = .ok neg3 :=
  C44_round_trip_back _ _ neg3_denotes (by decide) hs
example (hs : Cfg.strictShift = true) : toBigInteger (py (-7)) = .ub .badShift := C44_strict_shift _ hs (by decide) (by decide)
example (hs : Cfg.strictShift = false) : PyCmp.eq.eval (.big ⟨7, []⟩) (.int (py 7)) = some (.ok true) ∧ PyCmp.eq.eval (.int (py 7)) (.big ⟨7, []⟩) = some (.ok true) ∧
    pyHash ⟨7, []⟩ ≠ intHash (7 : Nat) := C47_never _ 7 _ (by decide) (BigInt.denotes_small (by decide) (by decide)) rfl hs

end BigIntegerCpp
