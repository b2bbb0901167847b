import Verif.Props.Python
import Verif.Props.PythonObject
import Verif.Props.Pow
import Verif.Props.Exact
import Verif.Props.Samples
import Verif.PythonDispatchSpec
/-
C77: Python expressions with objects of any type, truth values and exceptions.
-/
set_option linter.unusedSectionVars false
namespace BigIntegerCpp
open Samples
variable [Cfg]

private theorem neg3_range : InRange (-18446744103774322693) :=
  lt_of_lt_of_le (show _ < 2 ^ 65 by decide) (Nat.pow_le_pow_right (by decide) (by decide))
private theorem small_range {x : Int} (h : x.natAbs < 2 ^ 65) : InRange x :=
  lt_of_lt_of_le h (Nat.pow_le_pow_right (by decide) (by decide))

private theorem operand_of {o : PyObject} {x : Int} (h : o.Stands x) : ∃ v, o.operand = some v ∧ v.Stands x := by
  cases o with
  | big a => exact ⟨_, rfl, h⟩
  | int n => exact ⟨_, rfl, h⟩
  | _ => exact h.elim

/-- On `BigInteger`s and `int`s the expression is the one of C45. -/
private theorem binary_eq {α : Type} (f : PyVal → PyVal → Option (Res α)) {l r : PyObject} {x y : Int} (hl : l.Stands x) (hr : r.Stands y)
    (h : OneBig l r) : ∃ v w, v.Stands x ∧ w.Stands y ∧ Bound v w ∧ ((∃ a, l = .big a) ↔ ∃ a, v = .big a) ∧ l.operand = some v ∧
      r.operand = some w ∧ (∀ t, f v w = some t → pyBinary f l r = .call t) := by
  cases l with
  | big a =>
    obtain ⟨w, h1, h2⟩ := operand_of hr
    refine ⟨.big a, w, hl, h2, by cases w <;> trivial, by simp, rfl, h1, fun t ht => ?_⟩
    simp only [pyBinary, h1, ht]
  | int n =>
    cases r with
    | big b => exact ⟨.int n, .big b, hl, hr, trivial, by simp, rfl, rfl, fun t ht => by simp only [pyBinary, ht]⟩
    | int m => rcases h with ⟨_, h⟩ | ⟨_, h⟩ <;> cases h
    | _ => exact hr.elim
  | _ => exact hl.elim

/-- `l op r` for `+ - * % / // & | ^`: division by zero raises `RuntimeError`, everything else has the value of the operation
on integers. -/
theorem C77_binary (op : PyOp) (l r : PyObject) (x y : Int) (hl : l.Stands x) (hr : r.Stands y) (h : OneBig l r)
    (hx : InRange x) (hy : InRange y) (hs : Cfg.strictShift = false) :
    match op.meaning x y with
    | .ok z => Gives l (pyBinary op.eval l r) z
    | .error _ => pyBinary op.eval l r = .raises .runtimeError := by
  obtain ⟨v, w, hv, hw, hb, hk, -, -, he⟩ := binary_eq op.eval hl hr h
  have := C45_binary op v w x y hv hw hb hx hy hs
  cases hm : op.meaning x y with
  | ok z =>
    rw [hm] at this
    dsimp only [Yields] at this
    cases v with
    | big a =>
      obtain ⟨b, h1, h2⟩ := this
      obtain ⟨a', rfl⟩ := hk.2 ⟨a, rfl⟩
      exact ⟨b, he _ h1, h2⟩
    | int n =>
      have : op.eval (.int n) w = some (.ok (.inr z)) := this
      have h2 := he _ this
      cases l with
      | big a' => obtain ⟨_, h⟩ := hk.1 ⟨a', rfl⟩; cases h
      | _ => exact h2
  | error e =>
    rw [hm] at this
    have this : op.eval v w = some (.throw e) := this
    obtain rfl : e = .divideByZero := by
      cases op <;> simp only [PyOp.meaning] at hm <;> first | cases hm | (split at hm <;> cases hm; rfl)
    exact he _ this
-- `7 - x`, `x // 0`
example (hs : Cfg.strictShift = false) : pyBinary (PyOp.eval .sub) (.int ⟨7, false, by simp⟩) (.big neg3) = .value (.inr 18446744103774322700) :=
  C77_binary .sub (.int ⟨7, false, by simp⟩) (.big neg3) 7 (-18446744103774322693) rfl neg3_denotes (.inr ⟨_, rfl⟩) (small_range (by decide)) neg3_range hs
example (hs : Cfg.strictShift = false) : pyBinary (PyOp.eval .floordiv) (.big neg3) (.int ⟨0, true, by simp⟩) = .raises .runtimeError :=
  C77_binary .floordiv (.big neg3) (.int ⟨0, true, by simp⟩) _ 0 neg3_denotes rfl (.inl ⟨_, rfl⟩) neg3_range (small_range (by decide)) hs

/-- Comparisons between `BigInteger`s and `int`s. -/
theorem C77_compare (c : PyCmp) (l r : PyObject) (x y : Int) (hl : l.Stands x) (hr : r.Stands y)
    (hx : InRange x) (hy : InRange y) (hs : Cfg.strictShift = false) : pyCompare c l r = .value (decide (c.meaning x y)) := by
  by_cases h : OneBig l r
  · obtain ⟨v, w, hv, hw, hb, -, -, -, he⟩ := binary_eq c.eval hl hr h
    have h2 := he _ (C45_compare c v w x y hv hw hb hx hy hs)
    cases l with
    | big a => exact h2
    | int n =>
      cases r with
      | big b => exact h2
      | int m => rcases h with ⟨_, h⟩ | ⟨_, h⟩ <;> cases h
      | _ => exact hr.elim
    | _ => exact hl.elim
  · cases l with
    | big a => exact absurd (.inl ⟨a, rfl⟩) h
    | int n =>
      cases r with
      | big b => exact absurd (.inr ⟨b, rfl⟩) h
      | int m =>
        obtain rfl : n.value = x := hl
        obtain rfl : m.value = y := hr
        cases c <;> rfl
      | _ => exact hr.elim
    | _ => exact hl.elim
-- `3 >= x`
example (hs : Cfg.strictShift = false) : pyCompare .ge (.int ⟨3, false, by simp⟩) (.big neg3) = .value true :=
  C77_compare .ge (.int ⟨3, false, by simp⟩) (.big neg3) 3 _ rfl neg3_denotes (small_range (by decide)) neg3_range hs

/-- Every operator raises `TypeError` for every object that is neither `BigInteger` nor `int`, on either side. -/
theorem C77_other_operand {α : Type} (f : PyVal → PyVal → Option (Res α)) (a : BigInt) (o : PyObject) (ho : o.Foreign) :
    pyBinary f (.big a) o = .raises .typeError ∧ (o.Declines → pyBinary f o (.big a) = .raises .typeError) := by
  cases o with
  | big _ => exact ho.elim
  | int _ => exact ho.elim
  | other t =>
    refine ⟨rfl, fun h => ?_⟩
    cases t with
    | true => exact absurd rfl h
    | false => rfl
  | _ => exact ⟨rfl, fun _ => rfl⟩
-- `x * 2.0`, `"abc" + x`
example : pyBinary (PyOp.eval .mul) (.big neg3) (.float 0x4000000000000000) = .raises .typeError := (C77_other_operand _ neg3 (.float 0x4000000000000000) trivial).1
example : pyBinary (PyOp.eval .add) (.other false) (.big neg3) = .raises .typeError := (C77_other_operand _ neg3 (.other false) trivial).2 (by simp [PyObject.Declines])

/-- Comparisons, `==` and `!=` among them, do so too. -/
theorem C77_compare_other (c : PyCmp) (a : BigInt) (o : PyObject) (ho : o.Foreign) :
    pyCompare c (.big a) o = .raises .typeError ∧ (o.Declines → pyCompare c o (.big a) = .raises .typeError) := by
  have := C77_other_operand c.eval a o ho
  cases o with
  | big _ => exact ho.elim
  | int _ => exact ho.elim
  | _ => exact this
-- `x != None`, `2.0 == x`
example : pyCompare .ne (.big neg3) .none = .raises .typeError := (C77_compare_other .ne neg3 .none trivial).1
example : pyCompare .eq (.float 0x4000000000000000) (.big ⟨2, []⟩) = .raises .typeError :=
  (C77_compare_other .eq ⟨2, []⟩ (.float 0x4000000000000000) trivial).2 (by simp [PyObject.Declines])

/-- `TypeError` is raised for no other operands. -/
theorem C77_type_error_iff {α : Type} (f : PyVal → PyVal → Option (Res α)) (a : BigInt) (o : PyObject) (ho : o.Declines) :
    (pyBinary f (.big a) o = .raises .typeError ↔ o.Foreign) ∧ (pyBinary f o (.big a) = .raises .typeError ↔ o.Foreign) := by
  have key : ∀ t : Option (Res α), (match t with | some x => PyOut.call x | none => PyOut.elsewhere) ≠ .raises .typeError := by
    intro t h
    cases t with
    | none => cases h
    | some r =>
      cases r with
      | throw e => cases e <;> cases h
      | _ => cases h
  refine ⟨⟨fun h => ?_, fun h => (C77_other_operand f a o h).1⟩, ⟨fun h => ?_, fun h => (C77_other_operand f a o h).2 ho⟩⟩
  · cases o with
    | big b => exact absurd h (key _)
    | int n => exact absurd h (key _)
    | _ => trivial
  · cases o with
    | big b => exact absurd h (key _)
    | int n => exact absurd h (key _)
    | _ => trivial
example : pyBinary pyDivmod (.big neg3) (.int ⟨0, true, by simp⟩) ≠ .raises .typeError := fun h =>
  (C77_type_error_iff pyDivmod neg3 (.int ⟨0, true, by simp⟩) (by simp [PyObject.Declines])).1.1 h

/-- A `BigInteger` on the left never gives way to the operators of the right operand, even if they know `BigInteger`s; on the
right it does. -/
theorem C77_never_gives_way {α : Type} (f : PyVal → PyVal → Option (Res α)) (a : BigInt) :
    pyBinary f (.big a) (.other true) = .raises .typeError ∧ pyBinary f (.other true) (.big a) = .elsewhere := ⟨rfl, rfl⟩

/-- `==` can raise: it is no equality for the containers of Python. -/
theorem C77_equality_refuted : ¬ ∀ (a : BigInt) (x : Int) (o : PyObject), a.Denotes x → ∃ b, pyCompare .eq (.big a) o = .value b := by
  intro h
  obtain ⟨b, h⟩ := h small _ .none small_denotes
  cases h

/-- No operator raises `ZeroDivisionError`. -/
theorem C77_no_zero_division_error {α : Type} (f : PyVal → PyVal → Option (Res α)) (l r m : PyObject) :
    pyBinary f l r ≠ .raises .zeroDivisionError ∧ pyPow3 l r m ≠ .raises .zeroDivisionError := by
  have key : ∀ {β : Type} (r : Res β), PyOut.call r ≠ .raises .zeroDivisionError := by
    intro β r h
    cases r with
    | throw e => cases e <;> cases h
    | _ => cases h
  constructor
  · unfold pyBinary
    repeat' split
    all_goals first | exact key _ | (intro h; cases h)
  · unfold pyPow3
    repeat' split
    all_goals first | exact key _ | (intro h; cases h)

/-- `divmod` by zero raises `RuntimeError`. -/
theorem C77_divmod_zero (l r : PyObject) (x : Int) (hl : l.Stands x) (hr : r.Stands 0) (h : OneBig l r) (hx : InRange x)
    (hs : Cfg.strictShift = false) : pyBinary pyDivmod l r = .raises .runtimeError := by
  obtain ⟨v, w, hv, hw, hb, -, -, -, he⟩ := binary_eq pyDivmod hl hr h
  exact he _ (C45_divmod_zero v w x hv hw hb hx hs)
example (hs : Cfg.strictShift = false) : pyBinary pyDivmod (.int ⟨5, false, by simp⟩) (.big ⟨0, []⟩) = .raises .runtimeError :=
  C77_divmod_zero (.int ⟨5, false, by simp⟩) (.big ⟨0, []⟩) 5 rfl (BigInt.denotes_small (by decide) (by decide)) (.inr ⟨_, rfl⟩) (small_range (by decide)) hs

/-- A shift count outside the range of `int` raises `OverflowError` if it is a `BigInteger` and `RuntimeError` if it is an `int`. -/
theorem C77_shift_count (l r : PyObject) (x y : Int) (hl : l.Stands x) (hr : r.Stands y) (h : OneBig l r) (hx : InRange x)
    (hy : ¬ IntRange y) (hs : Cfg.strictShift = false) (e : PyExc) (he : e = match r with | .big _ => .overflowError | _ => .runtimeError) :
    pyBinary pyShl l r = .raises e ∧ pyBinary pyShr l r = .raises e := by
  obtain ⟨v, w, hv, hw, hb, -, -, hro, h1⟩ := binary_eq pyShl hl hr h
  obtain ⟨v', w', hv', hw', hb', -, -, hro', h1'⟩ := binary_eq pyShr hl hr h
  obtain ⟨c1, c2⟩ := C45_shift_count v w x y hv hw hb hx hy hs
  obtain ⟨c1', c2'⟩ := C45_shift_count v' w' x y hv' hw' hb' hx hy hs
  cases r with
  | big b =>
    obtain rfl : PyVal.big b = w := Option.some.inj hro
    obtain rfl : PyVal.big b = w' := Option.some.inj hro'
    subst he
    exact ⟨h1 _ (c1 b rfl).1, h1' _ (c1' b rfl).2⟩
  | int n =>
    obtain rfl : PyVal.int n = w := Option.some.inj hro
    obtain rfl : PyVal.int n = w' := Option.some.inj hro'
    subst he
    exact ⟨h1 _ (c2 n rfl).1, h1' _ (c2' n rfl).2⟩
  | _ => exact hr.elim
-- `x << 2**40`, `x << BigInteger(38654705667)`
example (hs : Cfg.strictShift = false) : pyBinary pyShl (.big neg3) (.int ⟨2 ^ 40, false, by simp⟩) = .raises .runtimeError :=
  (C77_shift_count (.big neg3) (.int ⟨2 ^ 40, false, by simp⟩) _ _ neg3_denotes rfl (.inl ⟨_, rfl⟩) neg3_range (by unfold IntRange; decide) hs _ rfl).1
example (hs : Cfg.strictShift = false) : pyBinary pyShl (.big neg3) (.big pos2) = .raises .overflowError :=
  (C77_shift_count (.big neg3) (.big pos2) _ _ neg3_denotes pos2_denotes (.inl ⟨_, rfl⟩) neg3_range (by unfold IntRange; decide) hs _ rfl).1

/-- `l ** r` with a negative exponent raises `IndexError`, with one too large for an `int` `OverflowError`. -/
theorem C77_exponent (l r : PyObject) (x y : Int) (hl : l.Stands x) (hr : r.Stands y) (h : OneBig l r) (hx : InRange x)
    (hs : Cfg.strictShift = false) :
    (¬ IntRange y → pyBinary pyPow l r = .raises .overflowError) ∧ (-2 ^ 31 < y → y < 0 → pyBinary pyPow l r = .raises .indexError) := by
  obtain ⟨v, w, hv, hw, hb, -, -, -, he⟩ := binary_eq pyPow hl hr h
  obtain ⟨h1, h2⟩ := C45_pow_throws v w x y hv hw hb hx hs
  exact ⟨fun hy => he _ (h1 hy), fun h3 h4 => he _ (h2 h3 h4)⟩
-- `2 ** BigInteger(-42)`
example (hs : Cfg.strictShift = false) : pyBinary pyPow (.int ⟨2, false, by simp⟩) (.big small) = .raises .indexError :=
  (C77_exponent (.int ⟨2, false, by simp⟩) (.big small) 2 _ rfl small_denotes (.inr ⟨_, rfl⟩) (small_range (by decide)) hs).2 (by decide) (by decide)

/-- `pow(a, e, m)` needs a `BigInteger` `a`, and one among `e` and `m`: with two `int`s it raises `TypeError`, as with an `int` `a`. -/
theorem C77_pow3_type_error (a : BigInt) (k n : PyInt) (e m : PyObject) :
    pyPow3 (.big a) (.int k) (.int n) = .raises .typeError ∧ (e.Foreign ∨ m.Foreign → pyPow3 (.big a) e m = .raises .typeError) ∧
    (OneBig e m → e.Declines → m.Declines → pyPow3 (.int k) e m = .raises .typeError) := by
  refine ⟨rfl, fun h => ?_, fun h he hm => ?_⟩
  · cases e <;> cases m <;> first | rfl | (rcases h with h | h <;> exact h.elim)
  · have t : ∀ o : PyObject, o.Declines → o.takes = false := by
      intro o h
      cases o with
      | other t => cases t with
        | true => exact absurd rfl h
        | false => rfl
      | _ => rfl
    have hb : (e.isBig || m.isBig) = true := by
      rcases h with ⟨b, rfl⟩ | ⟨b, rfl⟩ <;> simp [PyObject.isBig]
    simp [pyPow3, t e he, t m hm, hb, show PyObject.takes (.int k) = false from rfl]
-- `pow(BigInteger(-42), 3, 5)`
example : pyPow3 (.big small) (.int ⟨3, false, by simp⟩) (.int ⟨5, false, by simp⟩) = .raises .typeError :=
  (C77_pow3_type_error small ⟨3, false, by simp⟩ ⟨5, false, by simp⟩ .none .none).1

/-- `pow(a, e, m)` with a modulus below 2^992: the remainder, as `mod_pow` computes it (C16). -/
theorem C77_pow3 (a : BigInt) (e m : PyObject) (x z : Int) (n : Nat) (ha : a.Denotes x) (he : e.Stands n) (hm : m.Stands z) (h : OneBig e m)
    (fa : a.Fits) (hn : InRange n) (hz : z ≠ 0) (hz2 : |z| < 2 ^ 992) (hs : Cfg.strictShift = false) :
    ∃ r, pyPow3 (.big a) e m = .value r ∧
      r.Denotes (if |z| < 2 ^ 31 ∧ (x ^ n).tmod z < 0 then (x ^ n).tmod z + 2 ^ 32 else (x ^ n).tmod z) := by
  have hzr : InRange z := by
    have : z.natAbs < 2 ^ 992 := by
      rw [Int.abs_eq_natAbs] at hz2
      exact_mod_cast hz2
    exact lt_of_lt_of_le this (Nat.pow_le_pow_right (by decide) (by decide))
  have big : ∀ {k : PyInt} {y : Int}, k.value = y → InRange y → Returns (toBigInteger k) y := by
    intro k y hk hy
    subst hk
    exact C44_of_int k (32 * (2 ^ 26 - 1)) (by decide) hy hs
  cases e with
  | big e =>
    cases m with
    | big m =>
      obtain ⟨r, h1, h2⟩ := C16_below_992_bits a e m x z n ha he hm fa hz hz2
      refine ⟨r, ?_, h2⟩
      show PyOut.call (a.modPow e m) = _
      rw [h1]; rfl
    | int k =>
      obtain ⟨m', e1, hm'⟩ := big hm hzr
      obtain ⟨r, h1, h2⟩ := C16_below_992_bits a e m' x z n ha he hm' fa hz hz2
      refine ⟨r, ?_, h2⟩
      show PyOut.call (do let m ← toBigInteger k; a.modPow e m) = _
      rw [e1, Res.ok_bind, h1]; rfl
    | _ => exact hm.elim
  | int k =>
    cases m with
    | big m =>
      obtain ⟨e', e1, he'⟩ := big he hn
      obtain ⟨r, h1, h2⟩ := C16_below_992_bits a e' m x z n ha he' hm fa hz hz2
      refine ⟨r, ?_, h2⟩
      show PyOut.call (do let e ← toBigInteger k; a.modPow e m) = _
      rw [e1, Res.ok_bind, h1]; rfl
    | int m => rcases h with ⟨_, h⟩ | ⟨_, h⟩ <;> cases h
    | _ => exact hm.elim
  | _ => exact he.elim
-- `pow(x, 3, BigInteger(38654705667))`
example (hs : Cfg.strictShift = false) : ∃ r, pyPow3 (.big neg3) (.int ⟨3, false, by simp⟩) (.big pos2) = .value r ∧
    r.Denotes (((-18446744103774322693) ^ 3 : Int).tmod 38654705667) := by
  obtain ⟨r, h1, h2⟩ := C77_pow3 neg3 (.int ⟨3, false, by simp⟩) (.big pos2) _ _ 3 neg3_denotes rfl pos2_denotes (.inr ⟨_, rfl⟩) neg3_fits
    (small_range (by decide)) (by decide) (lt_of_lt_of_le (show _ < (2 : Int) ^ 65 by decide) (pow_le_pow_right₀ (by decide) (by decide))) hs
  rw [if_neg (by decide)] at h2
  exact ⟨r, h1, h2⟩

/-- `BigInteger(value)`: from an `int` its value; from a buffer what C52 says; from anything else, a `BigInteger` among them, `TypeError`. -/
theorem C77_new (o : PyObject) (hs : Cfg.strictShift = false) :
    match o with
    | .int n => InRange n.value → ∃ a, pyNew o = .value a ∧ a.Denotes n.value
    | .buffer b => pyNew o = .call (ofBuffer b)
    | _ => pyNew o = .raises .typeError := by
  cases o with
  | int n =>
    intro hn
    obtain ⟨a, h1, h2⟩ := C44_of_int n (32 * (2 ^ 26 - 1)) (by decide) hn hs
    refine ⟨a, ?_, h2⟩
    show PyOut.call (toBigInteger n) = _
    rw [h1]; rfl
  | _ => rfl
-- `BigInteger(-7)`, `BigInteger(x)`
example (hs : Cfg.strictShift = false) : ∃ a, pyNew (.int ⟨-7, false, by simp⟩) = .value a ∧ a.Denotes (-7) :=
  C77_new (.int ⟨-7, false, by simp⟩) hs (small_range (by decide))
example (hs : Cfg.strictShift = false) : pyNew (.big neg3) = .raises .typeError := C77_new (.big neg3) hs

/-- Every `BigInteger` counts as true, zero among them: the class has neither `__bool__` nor `__len__`. -/
theorem C77_always_true (bool len : BigInt → Bool) (a : BigInt) : isTrue boundNames bool len a = true := by
  have h1 : "__bool__" ∉ boundNames := by decide
  have h2 : "__len__" ∉ boundNames := by decide
  simp only [isTrue, if_neg h1, if_neg h2]
example : isTrue boundNames (fun _ => false) (fun _ => false) ⟨0, []⟩ = true := C77_always_true _ _ _

/-- So the truth value is not the one of the number. -/
theorem C77_truth_refuted : ¬ ∀ (bool len : BigInt → Bool) (a : BigInt) (x : Int), a.Denotes x → isTrue boundNames bool len a = decide (x ≠ 0) := by
  intro h
  have h0 : BigInt.Denotes ⟨0, []⟩ 0 := BigInt.denotes_small (by decide) (by decide)
  have := h (fun _ => true) (fun _ => true) _ _ h0
  rw [C77_always_true] at this
  exact absurd this (by decide)

/-- There are no in-place operators: `l op= r` is `l = l op r`, and other names for the object `l` keep it. -/
theorem C77_in_place {α : Type} (iname : String) (h : iname ∈ ["__iadd__", "__isub__", "__imul__", "__imod__", "__ipow__", "__itruediv__",
    "__ifloordiv__", "__ilshift__", "__irshift__", "__iand__", "__ior__", "__ixor__"]) (g : PyObject → PyObject → PyOut α)
    (f : PyVal → PyVal → Option (Res α)) (l r : PyObject) : pyInPlace boundNames iname g f l r = pyBinary f l r := by
  have : iname ∉ boundNames := by
    have : ∀ s ∈ ["__iadd__", "__isub__", "__imul__", "__imod__", "__ipow__", "__itruediv__",
      "__ifloordiv__", "__ilshift__", "__irshift__", "__iand__", "__ior__", "__ixor__"], s ∉ boundNames := by decide +kernel
    exact this _ h
  cases l <;> simp only [pyInPlace, if_neg this]
-- `x += 1`
example (g : PyObject → PyObject → PyOut (BigInt ⊕ Int)) : pyInPlace boundNames "__iadd__" g (PyOp.eval .add) (.big small) (.int ⟨1, false, by simp⟩) =
    pyBinary (PyOp.eval .add) (.big small) (.int ⟨1, false, by simp⟩) := C77_in_place _ (by decide) _ _ _ _

/-! ### Lists -/

private theorem inRange_of_le {x y : Int} (h : x.natAbs ≤ y.natAbs) (hy : InRange y) : InRange x := lt_of_le_of_lt h hy

private theorem nat_le {x y : Int} (h : x ≤ y ∧ -y ≤ x) : x.natAbs ≤ y.natAbs := by omega

private theorem add_step {s o : PyObject} {x y : Int} (hsx : s.Stands x) (ho : o.Stands y) (hx : InRange x) (hy : InRange y)
    (hs : Cfg.strictShift = false) : GivesObject s.isBig (pyAdd s o) (x + y) := by
  have big := fun h : OneBig s o => C77_binary .add s o x y hsx ho h hx hy hs
  cases s with
  | big a =>
    obtain ⟨b, h1, h2⟩ := big (.inl ⟨a, rfl⟩)
    refine ⟨b, ?_, h2⟩
    simp only [pyAdd, h1, pyWrap]
  | int n =>
    cases o with
    | big b =>
      have h1 : pyBinary (PyOp.eval .add) (.int n) (.big b) = .value (.inr (x + y)) := big (.inr ⟨b, rfl⟩)
      exact ⟨⟨x + y, decide (x + y = 0), by simp⟩, by simp only [pyAdd, h1, pyWrap], rfl⟩
    | int m => exact ⟨_, rfl, congrArg₂ (· + ·) hsx ho⟩
    | _ => exact ho.elim
  | _ => exact hsx.elim

/-- `sum(items, start)` of `BigInteger`s and `int`s is the sum; it is a `BigInteger` exactly if `start` is one, so
`sum(items)`, which starts at the `int` 0, never is. -/
theorem C77_sum (start : PyObject) (x : Int) (items : List PyObject) (xs : List Int) (h0 : start.Stands x)
    (h : List.Forall₂ PyObject.Stands items xs) (hr : InRange (|x| + (xs.map abs).sum)) (hs : Cfg.strictShift = false) :
    GivesObject start.isBig (pySum start items) (x + xs.sum) := by
  induction h generalizing start x with
  | nil =>
    cases start with
    | big a => exact ⟨a, rfl, by rw [List.sum_nil, add_zero]; exact h0⟩
    | int n => exact ⟨n, rfl, by rw [List.sum_nil, add_zero]; exact h0⟩
    | _ => exact h0.elim
  | @cons o y os ys ho _ ih =>
    have hpos : 0 ≤ (ys.map abs).sum := List.sum_nonneg (by
      intro z hz
      obtain ⟨w, -, rfl⟩ := List.mem_map.1 hz
      exact abs_nonneg w)
    rw [List.map_cons, List.sum_cons] at hr
    have hx : InRange x := inRange_of_le (nat_le (by have := le_abs_self x; have := neg_abs_le x; have := le_abs_self y; have := neg_abs_le y; constructor <;> linarith)) hr
    have hy : InRange y := inRange_of_le (nat_le (by have := le_abs_self x; have := neg_abs_le x; have := le_abs_self y; have := neg_abs_le y; constructor <;> linarith)) hr
    have h1 := add_step h0 ho hx hy hs
    have hr' : InRange (|x + y| + (ys.map abs).sum) :=
      inRange_of_le (nat_le (by have := abs_add_le x y; have := abs_nonneg (x + y); constructor <;> linarith)) hr
    rw [List.sum_cons, ← add_assoc]
    by_cases hb : start.isBig = true
    · unfold GivesObject at h1
      rw [if_pos hb] at h1
      obtain ⟨b, h2, h3⟩ := h1
      have := ih (.big b) (x + y) h3 hr'
      rw [hb]
      have e : pySum start (o :: os) = pySum (.big b) os := by simp only [pySum, h2]
      rw [e]
      exact this
    · unfold GivesObject at h1
      rw [if_neg hb] at h1
      obtain ⟨n, h2, h3⟩ := h1
      have := ih (.int n) (x + y) h3 hr'
      rw [Bool.not_eq_true] at hb
      rw [hb]
      have e : pySum start (o :: os) = pySum (.int n) os := by simp only [pySum, h2]
      rw [e]
      exact this
-- `sum([x, 1, x])` is an `int`
example (hs : Cfg.strictShift = false) : ∃ n, pySum (.int ⟨0, true, by simp⟩) [.big neg3, .int ⟨1, false, by simp⟩, .big neg3] = .value (.int n) ∧
    n.value = -36893488207548645385 :=
  C77_sum (.int ⟨0, true, by simp⟩) 0 [.big neg3, .int ⟨1, false, by simp⟩, .big neg3] [-18446744103774322693, 1, -18446744103774322693] rfl
    (.cons neg3_denotes (.cons rfl (.cons neg3_denotes .nil))) (lt_of_lt_of_le (show _ < 2 ^ 68 by decide) (Nat.pow_le_pow_right (by decide) (by decide))) hs

/-- `x in items` among `BigInteger`s and `int`s: whether one of them has the value. -/
theorem C77_in (x : PyObject) (v : Int) (items : List PyObject) (vs : List Int) (h0 : x.Stands v)
    (h : List.Forall₂ PyObject.Stands items vs) (hv : InRange v) (hr : ∀ w ∈ vs, InRange w) (hs : Cfg.strictShift = false) :
    pyIn x items = .value (decide (v ∈ vs)) := by
  induction h with
  | nil => simp [pyIn]
  | @cons o w os ws ho _ ih =>
    have h1 := C77_compare .eq o x w v ho h0 (hr w (by simp)) hv hs
    have ih := ih fun w hw => hr w (by simp [hw])
    by_cases e : w = v
    · subst e
      simp [pyIn, h1, PyCmp.meaning]
    · have e' : ¬ v = w := fun h => e h.symm
      simp [pyIn, h1, PyCmp.meaning, e, e', ih]
-- `-42 in [x, BigInteger(-42)]`
example (hs : Cfg.strictShift = false) : pyIn (.int ⟨-42, false, by simp⟩) [.big neg3, .big small] = .value true :=
  C77_in (.int ⟨-42, false, by simp⟩) (-42) [.big neg3, .big small] [-18446744103774322693, -42] rfl (.cons neg3_denotes (.cons small_denotes .nil))
    (small_range (by decide)) (by
      intro w hw
      simp only [List.mem_cons, List.not_mem_nil, or_false] at hw
      rcases hw with h | h
      · exact h ▸ neg3_range
      · exact h ▸ small_range (by decide)) hs

/-- An object of another type in the list makes `x in items` raise `TypeError`, unless an item before it has the value. -/
theorem C77_in_raises (a : BigInt) (v : Int) (items rest : List PyObject) (vs : List Int) (o : PyObject) (h0 : a.Denotes v)
    (h : List.Forall₂ PyObject.Stands items vs) (hv : InRange v) (hr : ∀ w ∈ vs, InRange w) (ho : o.Foreign) (hd : o.Declines)
    (hs : Cfg.strictShift = false) :
    pyIn (.big a) (items ++ o :: rest) = if v ∈ vs then .value true else .raises .typeError := by
  induction h with
  | nil => simp [pyIn, (C77_compare_other .eq a o ho).2 hd]
  | @cons p w os ws hp _ ih =>
    have h1 := C77_compare .eq p (.big a) w v hp h0 (hr w (by simp)) hv hs
    have ih := ih fun w hw => hr w (by simp [hw])
    by_cases e : w = v
    · subst e
      simp [pyIn, h1, PyCmp.meaning]
    · have e' : ¬ v = w := fun h => e h.symm
      simp [pyIn, h1, PyCmp.meaning, e, e', ih]
-- `BigInteger(-42) in [x, None, BigInteger(-42)]`
example (hs : Cfg.strictShift = false) : pyIn (.big small) [.big neg3, .none, .big small] = .raises .typeError :=
  C77_in_raises small (-42) [.big neg3] [.big small] [-18446744103774322693] .none small_denotes (.cons neg3_denotes .nil)
    (small_range (by decide)) (fun w hw => by rw [List.mem_singleton.1 hw]; exact neg3_range) trivial (by simp [PyObject.Declines]) hs

private theorem skip {α : Type} {a b c : α} {l : List α} (h : a ∈ b :: l) : a ∈ b :: c :: l := by
  rcases List.mem_cons.1 h with rfl | h
  · exact List.mem_cons_self
  · exact List.mem_cons_of_mem _ (List.mem_cons_of_mem _ h)

/-- `max(items)` and `min(items)` of `BigInteger`s and `int`s are one of the items, and none is greater (less). -/
theorem C77_extreme (greater : Bool) (best : PyObject) (x : Int) (items : List PyObject) (xs : List Int) (h0 : best.Stands x)
    (h : List.Forall₂ PyObject.Stands items xs) (hx : InRange x) (hr : ∀ w ∈ xs, InRange w) (hs : Cfg.strictShift = false) :
    ∃ o ∈ best :: items, ∃ z ∈ x :: xs, pyExtreme greater best items = .value o ∧ o.Stands z ∧
      ∀ w ∈ x :: xs, if greater then w ≤ z else z ≤ w := by
  induction h generalizing best x with
  | nil =>
    refine ⟨best, by simp, x, by simp, rfl, h0, fun w hw => ?_⟩
    obtain rfl : w = x := by simpa using hw
    split <;> exact le_refl _
  | @cons o y os ys ho _ ih =>
    have h1 := C77_compare (if greater then .gt else .lt) o best y x ho h0 (hr y (by simp)) hx hs
    have hr' : ∀ w ∈ ys, InRange w := fun w hw => hr w (by simp [hw])
    by_cases e : (if greater then PyCmp.gt else .lt).meaning y x
    · obtain ⟨p, hp, z, hz, h2, h3, h4⟩ := ih o y ho (hr y (by simp)) hr'
      refine ⟨p, List.mem_cons_of_mem _ hp, z, List.mem_cons_of_mem _ hz, by simp [pyExtreme, h1, e, h2], h3, fun w hw => ?_⟩
      have hy := h4 y (by simp)
      rcases List.mem_cons.1 hw with rfl | hw
      · cases greater <;> simp [PyCmp.meaning] at e hy ⊢ <;> omega
      · exact h4 w hw
    · obtain ⟨p, hp, z, hz, h2, h3, h4⟩ := ih best x h0 hx hr'
      refine ⟨p, skip hp, z, skip hz, by simp [pyExtreme, h1, e, h2], h3, fun w hw => ?_⟩
      have hy := h4 x (by simp)
      rcases List.mem_cons.1 hw with rfl | hw
      · exact hy
      rcases List.mem_cons.1 hw with rfl | hw
      · cases greater <;> simp [PyCmp.meaning] at e hy ⊢ <;> omega
      · exact h4 w (by simp [hw])
-- `max([x, 5, BigInteger(-42)])`
example (hs : Cfg.strictShift = false) : ∃ o, pyExtreme true (.big neg3) [.int ⟨5, false, by simp⟩, .big small] = .value o ∧ o.Stands 5 := by
  obtain ⟨o, -, z, hz, h1, h2, h3⟩ := C77_extreme true (.big neg3) (-18446744103774322693) [.int ⟨5, false, by simp⟩, .big small] [5, -42] neg3_denotes
    (.cons rfl (.cons small_denotes .nil)) neg3_range (by
      intro w hw
      simp only [List.mem_cons, List.not_mem_nil, or_false] at hw
      rcases hw with h | h <;> exact h ▸ small_range (by decide)) hs
  have h5 : (5 : Int) ≤ z := h3 5 (by simp)
  have : z = 5 := by
    simp only [List.mem_cons, List.not_mem_nil, or_false] at hz
    omega
  exact ⟨o, h1, this ▸ h2⟩

end BigIntegerCpp
